import Verif.NvReduce.Model
/-!
# C111: what a user of `reduce` on a GPU relies on

The specification: `Spec` says how the receiver is to be completed; the rest is of the list of events alone.
-/
namespace Verif.NvReduce
variable {α : Type}

/-- The completions of the receiver, in order. -/
def completions : List (Ev α) → List (Output α)
  | [] => []
  | .complete o :: l => o :: completions l
  | _ :: l => completions l

/-- The results that come to life in the storage. -/
def results : List (Ev α) → List α
  | [] => []
  | .result v :: l => v :: results l
  | _ :: l => results l

/-- How often a result is destroyed. -/
def destroyed : List (Ev α) → Nat
  | [] => 0
  | .destroy :: l => destroyed l + 1
  | _ :: l => destroyed l

/-- Temporary storage allocated and not freed. -/
def tempHeld : List (Ev α) → Int
  | [] => 0
  | .allocTemp :: l => tempHeld l + 1
  | .freeTemp :: l => tempHeld l - 1
  | _ :: l => tempHeld l

/-- The first of the statuses that is not success. -/
def firstFailure : List Nat → Option Nat
  | [] => none
  | s :: l => if s = 0 then firstFailure l else some s

/-- How the receiver is to be completed: what is not a range passes; the sum of the range and the initial value, or the first error of the
    runtime. -/
def Spec (w : World α) : Output α :=
  match w.input with
  | .error e => .error e
  | .stopped => .stopped
  | .range l =>
    match firstFailure [w.sync, w.size, w.alloc, w.reduce, w.free] with
    | some s => .cuda s
    | none => .value (l.foldl w.f w.init)

/-- **C111.** The receiver is completed exactly once, as the specification says, for every range, function, initial value and every
    combination of failures. -/
theorem C111_completion (w : World α) : completions (run w) = [Spec w] := by
  obtain ⟨i, f, inp, tr, s1, s2, s3, s4, s5⟩ := w
  cases inp with
  | error e => cases tr <;> simp [run, receive, reduced, completions, Spec]
  | stopped => cases tr <;> simp [run, receive, reduced, completions, Spec]
  | range l =>
    by_cases h1 : s1 = 0 <;> by_cases h2 : s2 = 0 <;> by_cases h3 : s3 = 0 <;> by_cases h4 : s4 = 0 <;> by_cases h5 : s5 = 0 <;>
      cases tr <;> simp [run, receive, setValue, reduced, completions, Spec, firstFailure, World.total, h1, h2, h3, h4, h5]

/-- **C111.** A range without elements gives the initial value. -/
theorem C111_empty (w : World α) (h : w.input = .range []) (hs : firstFailure [w.sync, w.size, w.alloc, w.reduce, w.free] = none) :
    completions (run w) = [.value w.init] := by
  rw [C111_completion]; simp [Spec, h, hs]

/-- **C111.** For an associative function with the initial value as its unit, the reduction of two ranges one after the other is that of
    their sums: however the device splits the range. -/
theorem C111_split (f : α → α → α) (e : α) (hassoc : ∀ a b c, f (f a b) c = f a (f b c)) (hunit : ∀ a, f a e = a) (hunit' : ∀ a, f e a = a)
    (w : World α) (l₁ l₂ : List α) (hf : w.f = f) (hi : w.init = e) :
    w.total (l₁ ++ l₂) = f (w.total l₁) (w.total l₂) := by
  have aux : ∀ (l : List α) (a : α), l.foldl f a = f a (l.foldl f e) := by
    intro l
    induction l with
    | nil => intro a; simp [hunit]
    | cons x l ih => intro a; rw [List.foldl_cons, List.foldl_cons, ih, ih (f e x), hunit', hassoc]
  simp only [World.total, hf, hi, List.foldl_append]
  exact aux l₂ _

/-- **C111.** A result that comes to life is destroyed exactly once if its type asks for it, none is destroyed that did not, and the storage
    is given back once, last. -/
theorem C111_result (w : World α) :
    destroyed (run w) = (if w.trivial = true then 0 else (results (run w)).length) ∧ (results (run w)).length ≤ 1 ∧
    ∃ p, run w = p ++ [.dealloc] ∧ Ev.dealloc ∉ p := by
  obtain ⟨i, f, inp, tr, s1, s2, s3, s4, s5⟩ := w
  cases inp with
  | error e => cases tr <;> exact ⟨by simp [run, receive, reduced, destroyed, results], by simp [run, receive, reduced, results],
      _, rfl, by simp [receive, reduced]⟩
  | stopped => cases tr <;> exact ⟨by simp [run, receive, reduced, destroyed, results], by simp [run, receive, reduced, results],
      _, rfl, by simp [receive, reduced]⟩
  | range l =>
    refine ⟨?_, ?_, _, rfl, ?_⟩ <;>
    by_cases h1 : s1 = 0 <;> by_cases h2 : s2 = 0 <;> by_cases h3 : s3 = 0 <;> by_cases h4 : s4 = 0 <;> by_cases h5 : s5 = 0 <;>
      cases tr <;> simp [run, receive, setValue, reduced, destroyed, results, h1, h2, h3, h4, h5]

/-- **C111.** Nothing is reduced, and the range is not looked at, before the stream has been waited for. -/
theorem C111_waits (w : World α) (l : List α) (h : w.input = .range l) : (run w).head? = some .wait := by
  by_cases h1 : w.sync = 0 <;> by_cases h2 : w.size = 0 <;> by_cases h3 : w.alloc = 0 <;> by_cases h4 : w.reduce = 0 <;>
    by_cases h5 : w.free = 0 <;> simp [run, receive, setValue, h, h1, h2, h3, h4, h5]

/-- **C111, part.** The temporary storage is freed, if the reduction is accepted and freeing it succeeds; and there is none to free if the
    operation fails before. -/
theorem C111_temp_partial (w : World α) (h : (w.reduce = 0 ∧ w.free = 0) ∨ w.sync ≠ 0 ∨ w.size ≠ 0 ∨ w.alloc ≠ 0) :
    tempHeld (run w) = 0 := by
  obtain ⟨i, f, inp, tr, s1, s2, s3, s4, s5⟩ := w
  cases inp with
  | error e => cases tr <;> simp [run, receive, reduced, tempHeld]
  | stopped => cases tr <;> simp [run, receive, reduced, tempHeld]
  | range l =>
    by_cases h1 : s1 = 0 <;> by_cases h2 : s2 = 0 <;> by_cases h3 : s3 = 0 <;> by_cases h4 : s4 = 0 <;> by_cases h5 : s5 = 0 <;>
      simp [h1, h2, h3, h4, h5] at h <;>
      cases tr <;> simp [run, receive, setValue, reduced, tempHeld, h1, h2, h3, h4, h5]

/-- **C111, the code's behaviour.** If the reduction is refused after its temporary storage has been allocated, nobody frees that. -/
theorem C111_temp_violated (w : World α) (l : List α) (h : w.input = .range l) (h1 : w.sync = 0) (h2 : w.size = 0) (h3 : w.alloc = 0)
    (h4 : w.reduce ≠ 0) : tempHeld (run w) = 1 := by
  cases ht : w.trivial <;> simp [run, receive, setValue, reduced, tempHeld, h, h1, h2, h3, h4]

/-! ### Concrete cases -/

/-- The sum of four numbers, nothing failing. -/
def sum4 : World Nat := ⟨0, (· + ·), .range [1, 2, 3, 4], false, 0, 0, 0, 0, 0⟩

example : run sum4 = [.wait, .query, .allocTemp, .result 10, .freeTemp, .complete (.value 10), .destroy, .dealloc] := by decide
example : run { sum4 with reduce := 9 } = [.wait, .query, .allocTemp, .complete (.cuda 9), .dealloc] := by decide
example : firstFailure [sum4.sync, sum4.size, sum4.alloc, sum4.reduce, sum4.free] = none := by decide
example : (sum4.reduce = 0 ∧ sum4.free = 0) := by decide

end Verif.NvReduce
