import Verif.ForkJoin.Model
/-! # `exec::fork_join` — C72 -/
namespace Verif.ForkJoin

structure Inv (n : Nat) (s : St) : Prop where
  alive : s.pc ≠ .idle → s.pc ≠ .finished → s.alive = true
  childA : (s.pc = .idle ∨ s.pc = .child ∨ s.pc = .cached) → s.alive = true →
    s.child = true ∧ s.dead = 0
  childB : (∃ i, s.pc = .forking i) ∨ s.pc = .finished ∨ s.alive = false → s.child = false ∧ s.dead = 1
  cacheA : (s.pc = .idle ∨ s.pc = .child) → s.cache = none ∧ s.pred = none ∧ s.threw = none
  cacheB : s.pc ≠ .idle → s.pc ≠ .child → s.cache.isSome = true
  cacheC : ∀ r, s.cache = some r →
    (s.pred = some r ∧ s.threw = none) ∨ (∃ e, s.threw = some e ∧ r = .error e ∧ s.pred ≠ none)
  idx : ∀ i, s.pc = .forking i → i ≤ n
  br0 : (∀ i, s.pc ≠ .forking i) → s.pc ≠ .finished → ∀ j, s.br j = .idle ∧ s.starts j = 0
  br1a : ∀ i j, s.pc = .forking i → j < i → s.br j ≠ .idle ∧ s.starts j = 1 ∧ s.seen j = s.cache
  br1b : ∀ i j, s.pc = .forking i → i ≤ j → s.br j = .idle ∧ s.starts j = 0
  br2a : s.pc = .finished → s.skipped = false → ∀ j, j < n →
    s.br j = .done ∧ s.starts j = 1 ∧ s.seen j = s.cache
  br2b : s.pc = .finished → s.skipped = false → ∀ j, n ≤ j → s.br j = .idle ∧ s.starts j = 0
  br3 : s.skipped = true → s.pc = .finished ∧ ∀ j, s.br j = .idle ∧ s.starts j = 0
  comp : s.comps = if s.pc = .finished then 1 else 0
  noub : s.ub = false

theorem inv_init (n : Nat) : Inv n init := by constructor <;> simp [init]

set_option maxHeartbeats 1000000 in
theorem inv_step {n : Nat} {s s' : St} (a : Act) (h : Inv n s) (hs : step n s a = some s') :
    Inv n s' := by
  obtain ⟨e1, e2, e3, e4, e5, e6, e7, e8, e9, e10, e11, e12, e13, e14, e15⟩ := h
  have hrun : ∀ j, s.br j = .running → s.alive = true := by
    intro j hj
    cases hp : s.pc <;> cases hk : s.skipped <;> by_cases hjn : j < n <;> grind
  have hnone : ∀ i, s.pc = .forking i → s.cache.isNone = false := by
    intro i hp
    have := e5 (by simp [hp]) (by simp [hp])
    cases hc : s.cache <;> simp [hc] at this ⊢
  have hfa : ∀ i, s.pc = .forking i → s.alive = true := fun i hp => e1 (by simp [hp]) (by simp [hp])
  cases a with
  | fork =>
    simp only [step] at hs
    split at hs
    · rename_i i hp
      have h9 := fun j => e9 i j hp
      have h10 := fun j => e10 i j hp
      split at hs <;> cases hs
      constructor <;> first | assumption | grind
    · cases hs
  | skip =>
    simp only [step] at hs
    split at hs <;> cases hs
    rename_i hp
    have h10 := fun j => e10 0 j hp (Nat.zero_le _)
    constructor <;> first | assumption | grind
  | _ =>
    simp only [step] at hs <;> (repeat' split at hs) <;> cases hs <;>
    (constructor <;> first | assumption | grind | skip)

theorem inv_reach {n : Nat} {s : St} (h : Reachable n s) : Inv n s :=
  Reach.inv (Inv n) (inv_init n) (fun _ a _ hi he => inv_step a hi he) s h

variable {n : Nat} {s : St}

/-- The receiver is completed at most once; nothing is used outside its lifetime. -/
theorem C72_safe (h : Reachable n s) : s.comps ≤ 1 ∧ s.ub = false := by
  have hi := inv_reach h
  refine ⟨?_, hi.noub⟩
  rw [hi.comp]; split <;> omega

/-- Every branch is started at most once, only after the predecessor has completed, and is given the
    predecessor's result — or, if storing that result threw, the exception. -/
theorem C72_branches (h : Reachable n s) (j : Nat) :
    s.starts j ≤ 1 ∧ (n ≤ j → s.starts j = 0) ∧
    (s.starts j = 1 → ∃ r, s.seen j = some r ∧
      ((s.pred = some r ∧ s.threw = none) ∨ (∃ e, s.threw = some e ∧ r = .error e ∧ s.pred ≠ none))) := by
  obtain ⟨e1, e2, e3, e4, e5, e6, e7, e8, e9, e10, e11, e12, e13, e14, e15⟩ := inv_reach h
  have hc : s.pc ≠ .idle → s.pc ≠ .child → ∃ r, s.cache = some r :=
    fun h1 h2 => Option.isSome_iff_exists.1 (e5 h1 h2)
  cases hp : s.pc with
  | idle => grind
  | child => grind
  | cached => grind
  | forking i =>
    obtain ⟨r, hr⟩ := hc (by simp [hp]) (by simp [hp])
    have h9 := e9 i j hp
    have h10 := e10 i j hp
    have h7 := e7 i hp
    by_cases hj : j < i
    · have := e6 r hr; grind
    · grind
  | finished =>
    obtain ⟨r, hr⟩ := hc (by simp [hp]) (by simp [hp])
    cases hk : s.skipped <;> by_cases hj : j < n <;> grind

/-- The receiver is completed only after every branch was started exactly once and has completed,
    unless `when_all` completed at once because stop had been requested, without starting any. -/
theorem C72_join (h : Reachable n s) (hc : s.comps = 1) :
    (s.skipped = true ∧ ∀ j, s.starts j = 0) ∨
    (s.skipped = false ∧ ∀ j < n, s.starts j = 1 ∧ s.br j = .done) := by
  obtain ⟨e1, e2, e3, e4, e5, e6, e7, e8, e9, e10, e11, e12, e13, e14, e15⟩ := inv_reach h
  have hf : s.pc = .finished := by grind
  cases hk : s.skipped <;> grind

/-- The predecessor's operation is destroyed exactly once — before the first branch starts, or with
    the whole operation if that is never started — and the operation is never destroyed while the
    predecessor or a branch is running. -/
theorem C72_lifetime (h : Reachable n s) :
    s.dead ≤ 1 ∧ (s.alive = false → s.dead = 1 ∧ ∀ j, s.br j ≠ .running) ∧
    (∀ j, s.starts j = 1 → s.dead = 1) := by
  obtain ⟨e1, e2, e3, e4, e5, e6, e7, e8, e9, e10, e11, e12, e13, e14, e15⟩ := inv_reach h
  refine ⟨?_, ?_, ?_⟩
  · by_cases hp : ∃ i, s.pc = .forking i
    · have := (e3 (Or.inl hp)).2; omega
    · cases ha : s.alive
      · have := (e3 (by simp [ha])).2; omega
      · cases hp' : s.pc with
        | forking i => exact absurd ⟨i, hp'⟩ hp
        | _ => grind
  · intro ha
    refine ⟨by grind, fun j => ?_⟩
    by_cases hf : s.pc = .finished
    · cases hk : s.skipped <;> by_cases hj : j < n <;> grind
    · grind
  · intro j hj
    cases hp : s.pc with
    | forking i => exact (e3 (Or.inl ⟨i, hp⟩)).2
    | _ => grind

/-- It is never stuck: as long as the receiver has not been completed, a started operation can move, or
    is waiting for the predecessor or a running branch. -/
theorem C72_progress (h : Reachable n s) (hs : s.pc ≠ .idle) (hc : s.comps = 0) :
    s.pc = .child ∨ (∃ j < n, s.br j = .running) ∨ ∃ a s', step n s a = some s' ∧
      (a = .drop ∨ a = .fork ∨ a = .join) := by
  obtain ⟨e1, e2, e3, e4, e5, e6, e7, e8, e9, e10, e11, e12, e13, e14, e15⟩ := inv_reach h
  cases hp : s.pc with
  | idle => exact absurd hp hs
  | child => simp
  | finished => grind
  | cached => right; right; exact ⟨.drop, _, by simp only [step, hp, if_true]; rfl, by simp⟩
  | forking i =>
    right
    by_cases hi : i < n
    · right; exact ⟨.fork, _, by simp only [step, hp, hi, if_true]; rfl, by simp⟩
    · have hin : i = n := by have := e7 i hp; omega
      subst hin
      by_cases hr : ∃ j < i, s.br j = .running
      · exact Or.inl hr
      · right
        have hall : ∀ j < i, s.br j = .done := by
          intro j hj
          have h1 := e9 i j hp hj
          cases hb : s.br j with
          | idle => exact absurd hb h1.1
          | running => exact absurd ⟨j, hj, hb⟩ hr
          | done => rfl
        exact ⟨.join, _, by simp only [step, hp]; rw [if_pos ⟨trivial, hall⟩], by simp⟩

/-! ## Concrete executions: two branches; storing the result throws in the second. -/
example : ((exec (step 2) init [.start, .predDone (.value [7, 8]), .drop, .fork, .branchDone 0, .fork,
    .branchDone 1, .join, .destroy]).map fun s => (s.comps, s.seen 0, s.seen 1, s.dead, s.ub)) =
    some (1, some (.value [7, 8]), some (.value [7, 8]), 1, false) := by rfl
example : ((exec (step 2) init [.start, .predThrow (.value [7]) 3, .drop, .fork, .fork]).map
    fun s => (s.comps, s.seen 1, s.pc)) = some (0, some (.error 3), .forking 2) := by rfl
example : ((exec (step 2) init [.destroy]).map fun s => (s.dead, s.alive, s.ub)) =
    some (1, false, false) := by rfl

end Verif.ForkJoin
