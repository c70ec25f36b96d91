import Verif.NvRepeat.Model
/-!
# The stream scheduler's `repeat_n`: property C86
-/
namespace Verif.NvRepeat

/-- The specification: the result, and the number of runs made, when run `i` has been started and `m` more are to follow
it. -/
def after (c : Cfg) : (m i : Nat) → Out × Nat
  | m, i => match c.child i with
    | .cuda e => (.cuda e, i + 1)
    | .other e => (if c.copyThrows i then .exn else .other e, i + 1)
    | .stopped => (.stopped, i + 1)
    | .value => match m with
      | 0 => (.value, i + 1)
      | m + 1 => if c.connThrows (i + 1) then (.exn, i + 1) else after c m (i + 1)

/-- The specification: the result of `repeat_n`, and the number of runs made. -/
def expected (c : Cfg) : Out × Nat :=
  if c.status ≠ 0 then (.cuda c.status, 0)
  else match c.n with
    | 0 => (.value, 0)
    | m + 1 => after c m 0

/-- The result, on its way or delivered. -/
def result (s : St) : List Out := s.out ++ s.kernel.toList

structure Inv (c : Cfg) (s : St) : Prop where
  fresh : s.started = false → s.running = false ∧ result s = [] ∧ s.runs = [] ∧ s.count = c.n ∧
    s.inner = (init c).inner ∧ s.conns = (init c).conns ∧ s.dtors = [] ∧ s.depth = 0
  run : s.running = true → s.started = true ∧ result s = [] ∧
    ∃ i m, s.inner = some i ∧ s.count = m + 1 ∧ s.runs = List.range (i + 1) ∧ expected c = after c m i ∧
      s.conns = List.range (i + 1) ∧ s.dtors = List.range i ∧ s.depth ≤ i ∧ i + m + 1 = c.n
  fin : s.started = true → s.running = false →
    result s = [(expected c).1] ∧ s.runs = List.range (expected c).2 ∧ (s.inner = none → s.dtors = s.conns) ∧
      ∀ i, s.inner = some i → s.conns = s.dtors ++ [i]
  peak : s.peak ≤ s.runs.length
  runsn : s.runs.length ≤ c.n
  depth : s.depth ≤ s.peak
  shallow : (∀ i, c.inl i = false) → s.depth ≤ 1 ∧ s.peak ≤ 1
  deep : (∀ i, c.inl i = true) → (s.running = true → s.depth + 1 = s.runs.length) ∧ (s.running = false → s.peak = s.runs.length)
  loc : s.kernel ≠ none → s.localRef = true →
    c.stream = false ∧ (s.kernel = some .exn ∨ ∃ e, s.kernel = some (.other e))
  locs : c.stream = true → s.kernel = none
  dang : s.dangling = true → c.stream = false ∧ ((expected c).1 = .exn ∨ ∃ e, (expected c).1 = .other e)

theorem inv_init (c : Cfg) : Inv c (init c) := by
  constructor <;> simp [init, result]

theorem after_eq (c : Cfg) (m i : Nat) : after c m i = match c.child i with
    | .cuda e => (.cuda e, i + 1)
    | .other e => (if c.copyThrows i then .exn else .other e, i + 1)
    | .stopped => (.stopped, i + 1)
    | .value => match m with
      | 0 => (.value, i + 1)
      | m + 1 => if c.connThrows (i + 1) then (.exn, i + 1) else after c m (i + 1) := by
  cases m <;> simp only [after]

theorem inv_complete {c : Cfg} {s s' : St} (h : Inv c s) (hs : step c s .complete = some s') : Inv c s' := by
  simp only [step] at hs
  split at hs
  · cases hs
  · rename_i i hi
    split at hs
    · rename_i hr
      obtain ⟨h1, h2, i', m, h3, h4, h5, h6, h7, h8, h9, h10⟩ := h.run hr
      have h3' : i' = i := by rw [hi] at h3; exact (Option.some.inj h3).symm
      subst h3'
      simp only [Option.some.injEq] at hs
      subst hs
      have hp := h.peak
      have hn := h.runsn
      have hd := h.depth
      have hsh := h.shallow
      have hdp := h.deep
      have hk := h.locs
      have hdg := h.dang
      simp only [result, List.append_eq_nil_iff, Option.toList_eq_nil_iff] at h2
      have hae := after_eq c m i'
      rw [← h6] at hae
      simp only [h5, List.length_range] at hp hn
      have hrs : List.range (i' + 2) = List.range (i' + 1) ++ [i' + 1] := List.range_succ
      have hrs' : List.range (i' + 1) = List.range i' ++ [i'] := List.range_succ
      cases hc : c.child i' <;> simp only [hc] at hae <;> simp only [complete, hc, propagate, reset, next]
      · cases m with
        | zero =>
          simp only at hae
          by_cases hst : c.stream = true
          · constructor <;> (try dsimp only) <;> simp_all [result] <;> grind
          · constructor <;> (try dsimp only) <;> simp_all [result] <;> grind
        | succ m =>
          simp only at hae
          simp only [h4]
          by_cases hct : c.connThrows (i' + 1) = true
          · by_cases hst : c.stream = true
            · constructor <;> (try dsimp only) <;> simp_all [result] <;> grind
            · constructor <;> (try dsimp only) <;> simp_all [result] <;> grind
          · simp only [hct, Bool.false_eq_true, if_false] at hae ⊢
            simp only [show m + 1 + 1 - 1 = m + 1 from rfl, Nat.add_one_ne_zero, if_false]
            constructor <;> (try dsimp only) <;> (try simp_all [result]) <;> grind
      · by_cases hst : c.stream = true
        · constructor <;> (try dsimp only) <;> simp_all [result] <;> grind
        · constructor <;> (try dsimp only) <;> simp_all [result] <;> grind
      · by_cases hcp : c.copyThrows i' = true
        · by_cases hst : c.stream = true
          · constructor <;> (try dsimp only) <;> simp_all [result] <;> grind
          · constructor <;> (try dsimp only) <;> simp_all [result] <;> grind
        · by_cases hst : c.stream = true
          · constructor <;> (try dsimp only) <;> simp_all [result] <;> grind
          · constructor <;> (try dsimp only) <;> simp_all [result] <;> grind
      · by_cases hst : c.stream = true
        · constructor <;> (try dsimp only) <;> simp_all [result] <;> grind
        · constructor <;> (try dsimp only) <;> simp_all [result] <;> grind
    · cases hs

theorem inv_start {c : Cfg} {s s' : St} (h : Inv c s) (hs : step c s .start = some s') : Inv c s' := by
  simp only [step] at hs
  split at hs
  · cases hs
  · rename_i hst
    obtain ⟨h1, h2, h3, h4, h5, h6, h7, h8⟩ := h.fresh (by simpa using hst)
    have hp := h.peak
    have hk := h.locs
    have hsh := h.shallow
    have hdg := h.dang
    simp only [result, List.append_eq_nil_iff, Option.toList_eq_nil_iff] at h2
    simp only [h3, List.length_nil, Nat.le_zero_eq] at hp
    have h5' : s.inner = if c.n = 0 then none else some 0 := h5
    have h6' : s.conns = if c.n = 0 then [] else [0] := h6
    split at hs
    · rename_i hc
      have he : expected c = (.cuda c.status, 0) := by simp [expected, hc]
      simp only [Option.some.injEq] at hs
      subst hs
      simp only [propagate]
      by_cases hsr : c.stream = true <;> constructor <;> (try dsimp only) <;> (try simp_all [result]) <;> grind
    · rename_i hc
      split at hs
      · rename_i h0
        have he : expected c = (.value, 0) := by
          have : c.n = 0 := by omega
          simp [expected, this]; omega
        simp only [Option.some.injEq] at hs
        subst hs
        simp only [propagate]
        by_cases hsr : c.stream = true <;> constructor <;> (try dsimp only) <;> (try simp_all [result]) <;> grind
      · rename_i h0
        have hn : c.n ≠ 0 := by omega
        obtain ⟨m, hm⟩ : ∃ m, c.n = m + 1 := ⟨c.n - 1, by omega⟩
        have he : expected c = after c m 0 := by
          simp only [expected, hm]; simp; omega
        rw [if_neg hn] at h5' h6'
        simp only [h5', Option.some.injEq] at hs
        subst hs
        constructor <;> (try dsimp only) <;> (try simp_all [result]) <;> grind

theorem inv_step {c : Cfg} {s s' : St} (a : Act) (h : Inv c s) (hs : step c s a = some s') : Inv c s' := by
  cases a with
  | start => exact inv_start h hs
  | complete => exact inv_complete h hs
  | unwind =>
    simp only [step] at hs
    split at hs
    · cases hs
    · rename_i hc
      split at hs
      · cases hs
      · cases hs
        obtain ⟨h1, h2, h3, h4, h5, h6, h7, h8, h9, h10, h11⟩ := h
        constructor <;> (try dsimp only) <;> first | assumption | grind [result]
  | kernel =>
    simp only [step] at hs
    split at hs
    · cases hs
    · rename_i o ho
      cases hs
      have hr : s.running = false := by
        cases hr : s.running with
        | false => rfl
        | true => have := (h.run hr).2.1; simp [result, ho] at this
      have hst : s.started = true := by
        cases hst : s.started with
        | true => rfl
        | false => have := (h.fresh hst).2.1; simp [result, ho] at this
      have hf := h.fin hst hr
      have hl := h.loc
      have hres : s.out ++ [o] = [(expected c).1] := by simpa [result, ho] using hf.1
      have ho' : s.out = [] ∧ o = (expected c).1 := by
        cases hso : s.out with
        | nil => rw [hso] at hres; simpa using hres
        | cons x l => rw [hso] at hres; simp at hres
      obtain ⟨h1, h2, h3, h4, h5, h6, h7, h8, h9, h10, h11⟩ := h
      constructor <;> (try dsimp only) <;> first | assumption | (simp_all [result]; done) | (simp_all [result]; grind)

theorem inv_reach {c : Cfg} {s : St} (h : Reachable c s) : Inv c s :=
  Reach.inv (Inv c) (inv_init c) (fun _ a _ h hs => inv_step a h hs) s h

/-- **C86**: whatever the receiver gets, it gets once, and it is the specified result; the runs made are the specified
number, one after the other. -/
theorem C86_result {c : Cfg} {s : St} (h : Reachable c s) (ho : s.out ≠ []) :
    s.out = [(expected c).1] ∧ s.runs = List.range (expected c).2 := by
  have hi := inv_reach h
  have hst : s.started = true := by
    cases hst : s.started with
    | true => rfl
    | false => have := (hi.fresh hst).2.1; simp [result, ho] at this
  have hr : s.running = false := by
    cases hr : s.running with
    | false => rfl
    | true => have := (hi.run hr).2.1; simp [result, ho] at this
  have hf := hi.fin hst hr
  refine ⟨?_, hf.2.1⟩
  have := hf.1
  simp only [result] at this
  cases hso : s.out with
  | nil => exact absurd hso ho
  | cons x l => rw [hso] at this; simp at this; simp [this]

/-- The specification when every run succeeds: `n` runs and a value. -/
theorem C86_expected_value (c : Cfg) (hs : c.status = 0) (hv : ∀ i, i < c.n → c.child i = .value)
    (hc : ∀ i, i < c.n → c.connThrows i = false) : expected c = (.value, c.n) := by
  have key : ∀ m i, i + m + 1 = c.n → after c m i = (.value, c.n) := by
    intro m
    induction m with
    | zero => intro i hi; rw [after_eq]; simp only [hv i (by omega)]; simp; omega
    | succ m ih =>
      intro i hi; rw [after_eq]; simp only [hv i (by omega), hc (i + 1) (by omega)]
      exact ih (i + 1) (by omega)
  unfold expected
  rw [if_neg (by omega)]
  cases hn : c.n with
  | zero => rfl
  | succ m => simp only; rw [key m 0 (by omega), hn]

/-- The specification when run `k` is the first one not to succeed: its completion, and `k + 1` runs. -/
theorem C86_expected_stops (c : Cfg) (k : Nat) (hs : c.status = 0) (hk : k < c.n)
    (hv : ∀ i, i < k → c.child i = .value) (hc : ∀ i, i ≤ k → c.connThrows i = false) (hn : c.child k ≠ .value)
    (hcp : c.copyThrows k = false) :
    (expected c).2 = k + 1 ∧ ((∀ e, c.child k = .cuda e → (expected c).1 = .cuda e) ∧
      (∀ e, c.child k = .other e → (expected c).1 = .other e) ∧ (c.child k = .stopped → (expected c).1 = .stopped)) := by
  have key : ∀ m i, i + m + 1 = c.n → i ≤ k → after c m i = after c (c.n - k - 1) k := by
    intro m
    induction m with
    | zero =>
      intro i hi hik; have : i = k := by omega
      subst this; congr 1; omega
    | succ m ih =>
      intro i hi hik
      by_cases hik' : i = k
      · subst hik'; congr 1; omega
      · rw [after_eq]; simp only [hv i (by omega), hc (i + 1) (by omega)]
        exact ih (i + 1) (by omega) (by omega)
  have he : expected c = after c (c.n - k - 1) k := by
    unfold expected
    rw [if_neg (by omega)]
    cases hcn : c.n with
    | zero => omega
    | succ m => simp only; rw [key m 0 (by omega) (by omega), hcn]
  rw [he, after_eq]
  cases hck : c.child k <;> simp_all

/-- **C86**: `repeat_n` completes: as long as nothing was delivered, it can go on (a run completes, the kernel runs, or
it is started); -/
theorem C86_progress {c : Cfg} {s : St} (h : Reachable c s) (ho : s.out = []) :
    ∃ a s', a ≠ .unwind ∧ step c s a = some s' := by
  have hi := inv_reach h
  cases hst : s.started with
  | false =>
    refine ⟨.start, ?_⟩
    have hf := hi.fresh hst
    simp only [step, hst]
    by_cases h1 : c.status ≠ 0
    · simp [h1]
    · by_cases h2 : s.count = 0
      · by_cases h3 : c.status = 0 <;> simp [h2, h3]
      · have : c.n ≠ 0 := by omega
        have h5 := hf.2.2.2.2.1
        simp only [init, this, if_false] at h5
        have h3 : c.status = 0 := by omega
        simp [h2, h5, h3]
  | true =>
    cases hr : s.running with
    | true =>
      obtain ⟨_, _, i, m, h3, _⟩ := hi.run hr
      exact ⟨.complete, by simp [step, h3, hr]⟩
    | false =>
      have hf := (hi.fin hst hr).1
      simp only [result, ho, List.nil_append] at hf
      cases hk : s.kernel with
      | none => simp [hk] at hf
      | some o => exact ⟨.kernel, by simp [step, hk]⟩

/-- What is left to do. -/
def left (s : St) : Nat :=
  (if s.started = false then 3 * s.count + 5 else if s.running then 3 * s.count + 2 else 0)
    + (if s.kernel.isSome then 2 else 0) + (if s.depth = 0 then 0 else 1)

theorem left_step {c : Cfg} {s s' : St} (a : Act) (h : Inv c s) (hs : step c s a = some s') : left s' < left s := by
  have hf := h.fresh
  have hr := h.run
  have hk : s.running = true → s.kernel = none := by
    intro hr'; have := (h.run hr').2.1; simp [result] at this; exact this.2
  have hk' : s.started = false → s.kernel = none := by
    intro hr'; have := (h.fresh hr').2.1; simp [result] at this; exact this.2
  have hf' : s.started = false → s.running = false ∧ s.depth = 0 := fun x => ⟨(hf x).1, (hf x).2.2.2.2.2.2.2⟩
  have hr' : s.running = true → s.started = true ∧ 0 < s.count := by
    intro x; obtain ⟨h1, _, i, m, _, h2, _⟩ := hr x; exact ⟨h1, by omega⟩
  clear hf hr h
  cases a <;> simp only [step, complete, next, reset, propagate] at hs <;> (repeat' split at hs) <;>
    first
    | (cases hs; done)
    | (simp only [Option.some.injEq] at hs; subst hs; simp only [left]; grind)

/-- **C86**: …and it cannot go on for ever: no execution takes more than `3n + 5` steps. -/
theorem C86_terminates {c : Cfg} {s : St} (as : List Act) (he : exec (step c) (init c) as = some s) :
    as.length ≤ 3 * c.n + 5 := by
  have := run_bound (step := step c) (fun _ => true) (Inv c) left
    (fun s a s' hp _ hs => ⟨inv_step a hp hs, left_step a hp hs⟩) as (init c) s (inv_init c) (by simp) he
  simpa [left, init] using this

/-- **C86**: at any time at most one run is connected, and it is the last one connected; the earlier ones have been
destroyed, each once, in order. -/
theorem C86_one_child {c : Cfg} {s : St} (h : Reachable c s) : s.conns = s.dtors ++ s.inner.toList := by
  have hi := inv_reach h
  cases hst : s.started with
  | false =>
    obtain ⟨_, _, _, _, h5, h6, h7, _⟩ := hi.fresh hst
    rw [h5, h6, h7]; simp only [init]; split <;> rfl
  | true =>
    cases hr : s.running with
    | true =>
      obtain ⟨_, _, i, m, h3, _, _, _, h6, h7, _⟩ := hi.run hr
      rw [h3, h6, h7, List.range_succ]; rfl
    | false =>
      obtain ⟨_, _, h3, h4⟩ := hi.fin hst hr
      cases hin : s.inner with
      | none => simp [h3 hin]
      | some i => simp [h4 i hin]

/-- **C86** (stack, partial: only when no run completes inside its `start()`): the stack does not grow. -/
theorem C86_stack_partial {c : Cfg} {s : St} (h : Reachable c s) (hn : ∀ i, c.inl i = false) : s.peak ≤ 1 :=
  ((inv_reach h).shallow hn).2

/-- **C86** (stack) is false for runs that complete inside `start()`, as stream senders do: every execution that delivers
its result had as many nested calls on the stack as there were runs. -/
theorem C86_stack_violated {c : Cfg} {s : St} (h : Reachable c s) (hn : ∀ i, c.inl i = true) (ho : s.out ≠ []) :
    s.peak = (expected c).2 := by
  have hi := inv_reach h
  have hr : s.running = false := by
    cases hr : s.running with
    | false => rfl
    | true => have := (hi.run hr).2.1; simp [result, ho] at this
  rw [(hi.deep hn).2 hr, (C86_result h ho).2, List.length_range]

/-- **C86** (argument lifetime, partial: unless a receiver that is not a stream receiver gets an error that is not a CUDA
error code): what the receiver is given exists when it is given. -/
theorem C86_no_dangling_partial {c : Cfg} {s : St} (h : Reachable c s)
    (hn : c.stream = true ∨ ((expected c).1 ≠ .exn ∧ ∀ e, (expected c).1 ≠ .other e)) : s.dangling = false := by
  cases hd : s.dangling with
  | false => rfl
  | true =>
    obtain ⟨h1, h2⟩ := (inv_reach h).dang hd
    rcases hn with hn | hn
    · rw [h1] at hn; cases hn
    · rcases h2 with h2 | ⟨e, h2⟩
      · exact absurd h2 hn.1
      · exact absurd h2 (hn.2 e)

/-- **C86** (argument lifetime) is false without the proviso: the kernel is given a reference to a local variable of a
function that may have returned. -/
theorem C86_dangling_violated (c : Cfg) (e : Nat) (hs : c.status = 0) (hn : 0 < c.n) (hst : c.stream = false)
    (hc : c.child 0 = .other e) (hcp : c.copyThrows 0 = false) :
    ∃ s, Reachable c s ∧ s.out = [.other e] ∧ s.dangling = true := by
  have hn' : c.n ≠ 0 := by omega
  have h : ∃ s, exec (step c) (init c) [.start, .complete, .unwind, .kernel] = some s ∧ s.out = [.other e] ∧
      s.dangling = true := by
    simp [exec, step, init, hs, hn', complete, hc, hcp, propagate, hst, reset]
  obtain ⟨s, h1, h2⟩ := h
  exact ⟨s, Reach.of_exec _ h1, h2⟩

/-- An environment for the examples: five runs, all inline, a stream receiver. -/
def exCfg : Cfg where
  n := 5
  status := 0
  stream := true
  child := fun i => if i = 3 then .stopped else .value
  inl := fun _ => true
  connThrows := fun _ => false
  copyThrows := fun _ => false

/-- Not vacuous: the fourth of five runs is stopped; the stack is then four calls deep. -/
example : ∃ s, Reachable exCfg s ∧ s.out = [.stopped] ∧ s.runs = [0, 1, 2, 3] ∧ s.peak = 4 := by
  have := Reach.witness (init := init exCfg) (step := step exCfg)
    [.start, .complete, .complete, .complete, .complete, .unwind]
    (fun s : St => decide (s.out = [.stopped] ∧ s.runs = [0, 1, 2, 3] ∧ s.peak = 4)) (by decide)
  obtain ⟨s, hr, hp⟩ := this
  exact ⟨s, hr, of_decide_eq_true hp⟩

/-- Not vacuous: for every number of runs there is an execution that delivers a value, with as deep a stack. -/
theorem C86_stack_unbounded (n : Nat) : ∃ s, Reachable { exCfg with n := n, child := fun _ => .value } s ∧
    s.out = [.value] ∧ s.runs = List.range n ∧ s.peak = n := by
  obtain ⟨as, s, _, he, hst⟩ := run_to_stuck (step := step { exCfg with n := n, child := fun _ => .value }) (fun _ => true)
    (init { exCfg with n := n, child := fun _ => .value }) (3 * n + 5) (fun as s' _ h => C86_terminates as h)
  have hr : Reachable { exCfg with n := n, child := fun _ => .value } s := Reach.of_exec _ he
  have ho : s.out ≠ [] := by
    intro ho
    obtain ⟨a, s', _, h1⟩ := C86_progress hr ho
    rw [hst a rfl] at h1; cases h1
  have hx := C86_expected_value { exCfg with n := n, child := fun _ => .value } rfl (fun _ _ => rfl) (fun _ _ => rfl)
  have h1 := C86_result hr ho
  have h2 := C86_stack_violated hr (fun _ => rfl) ho
  rw [hx] at h1 h2
  exact ⟨s, hr, h1.1, h1.2, h2⟩

end Verif.NvRepeat
