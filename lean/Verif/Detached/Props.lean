import Verif.Detached.Model
/-!
# C65: `start_detached`
-/
namespace Verif.Detached
set_option maxHeartbeats 4000000

/-- The sender's `submit` returns nothing that has to be stored. -/
def Plain (k : Kind) : Prop := k = .connect ∨ k = .submitVoid ∨ k = .direct

/-- How far the operation is constructed, by pc. -/
structure Inv (late : Bool) (x : St) : Prop where
  bad : x.bad = false
  ok : late = true ∨ Plain x.kind
  idle : x.pc = .idle ∨ x.pc = .alloc → x.allocs = 0 ∧ x.frees = 0 ∧ x.envs = 0 ∧ x.envd = 0 ∧ x.data = 0 ∧ x.datad = 0 ∧ x.alive = false ∧ x.started = false
  env : x.pc = .env → x.allocs = 1 ∧ x.frees = 0 ∧ x.envs = 0 ∧ x.envd = 0 ∧ x.data = 0 ∧ x.datad = 0 ∧ x.alive = false ∧ x.started = false ∧ x.kind ≠ .direct
  conn : x.pc = .conn → x.allocs = 1 ∧ x.frees = 0 ∧ x.envs = 1 ∧ x.envd = 0 ∧ x.data = 0 ∧ x.datad = 0 ∧ x.alive = false ∧ x.started = false ∧ x.kind ≠ .direct
  store : x.pc = .store → x.kind = .submit ∨ x.kind = .submitNothrow
  submit : x.pc = .submit → x.started = false
  threw : x.pc = .threw → x.started = false ∧ x.allocs = x.frees ∧ x.envs = x.envd ∧ x.data = x.datad ∧ x.alive = false ∧ x.allocs ≤ 1
  late : x.pc = .inside ∨ x.pc = .store ∨ x.pc = .ret → x.started = true ∧ (x.flag = true ↔ x.kind = .submit)
  live : x.pc = .submit ∨ x.pc = .inside ∨ x.pc = .store ∨ x.pc = .ret → x.kind ≠ .direct →
    x.allocs = 1 ∧ x.envs = 1 ∧ (x.kind = .connect → x.data = 1) ∧ (x.kind = .submitVoid → x.data = 0 ∧ x.datad = 0) ∧
    (x.kind = .submit ∨ x.kind = .submitNothrow → (x.pc = .ret → x.data = 1) ∧ (x.pc ≠ .ret → x.data = 0 ∧ x.alive = true)) ∧
    (x.alive = true → x.frees = 0 ∧ x.envd = 0 ∧ x.datad = 0) ∧ (x.alive = false → x.frees = 1 ∧ x.envd = 1 ∧ x.datad = x.data) ∧
    (x.alive = false ↔ (Sig.value ∈ x.sigs ∨ Sig.stopped ∈ x.sigs))
  dir : x.kind = .direct → x.allocs = 0 ∧ x.frees = 0 ∧ x.envs = 0 ∧ x.envd = 0 ∧ x.data = 0 ∧ x.datad = 0 ∧ x.alive = false
  kdir : x.kind = .direct → x.pc ≠ .alloc
  st : x.started = true → x.pc = .inside ∨ x.pc = .store ∨ x.pc = .ret
  sig : x.started = false → x.sigs = []
  len : x.sigs.length ≤ 1
  term : x.terminated = true ↔ Sig.error ∈ x.sigs

theorem inv_step (l : Bool) (x : St) (a : Act) (y : St) (h : Inv l x) (hs : step l x a = some y) : Inv l y := by
  obtain ⟨e1, e2, e3, e4, e5, e6, e7, e8, e9, e10, e11, e12, e13, e14, e15, e16⟩ := h
  cases a with
  | call => simp only [step] at hs; split at hs <;> cases hs; constructor <;> grind [Plain]
  | ok =>
    cases hp : x.pc <;> simp only [step, hp] at hs <;> cases hs
    all_goals constructor <;> grind [Plain]
  | throw =>
    cases hp : x.pc <;> simp only [step, hp] at hs <;> (repeat' split at hs) <;> cases hs
    all_goals constructor <;> grind [Plain, St.delete, St.holds]
  | complete g =>
    simp only [step] at hs
    split at hs
    · rename_i hc
      have hnil := hc.2.1
      cases g <;> simp only [] at hs <;> (try split at hs) <;> cases hs
      all_goals cases hk : x.kind
      all_goals simp only [St.delete, St.holds, hnil, hk] at *
      all_goals constructor <;> grind [Plain]
    · cases hs

theorem inv_reach (l : Bool) (k : Kind) (hk : l = true ∨ Plain k) (x : St) (hr : Reach (init k) (step l) x) : Inv l x :=
  Reach.inv (Inv l) (by constructor <;> simp [init, hk]) (inv_step l) x hr

theorem kind_const (l : Bool) (k : Kind) (x : St) (hr : Reach (init k) (step l) x) : x.kind = k := by
  refine Reach.inv (fun x => x.kind = k) rfl ?_ x hr
  intro s a s' hi he
  cases a <;> simp only [step] at he <;> (repeat' split at he) <;> cases he <;> exact hi

/-- Everything that was allocated or constructed has been freed or destroyed exactly once. -/
def Released (x : St) : Prop := x.frees = x.allocs ∧ x.envd = x.envs ∧ x.datad = x.data

/-- **C65 (safe)**: nothing is used after its destruction or destroyed without having been constructed or freed twice, if `submit` returns nothing that has
to be stored, or the work completes after `submit` has returned. Missing: `C65_violated_inline`. -/
theorem C65_safe_partial (l : Bool) (k : Kind) (hk : l = true ∨ Plain k) (x : St) (hr : Reach (init k) (step l) x) :
    x.bad = false ∧ x.allocs ≤ 1 ∧ x.frees ≤ x.allocs := by
  have h := inv_reach l k hk x hr
  obtain ⟨e1, e2, e3, e4, e5, e6, e7, e8, e9, e10, e11, e12, e13, e14, e15, e16⟩ := h
  refine ⟨e1, ?_⟩
  cases hk : x.kind <;> cases hp : x.pc <;> simp only [hk, hp] at * <;> cases ha : x.alive <;> grind

/-- **C65 (released)**: when the call has returned and the work has completed with a value or stopped, and also when the call has thrown, everything is
released exactly once. -/
theorem C65_released_partial (l : Bool) (k : Kind) (hk : l = true ∨ Plain k) (x : St) (hr : Reach (init k) (step l) x)
    (hf : x.pc = .threw ∨ x.pc = .ret ∧ (Sig.value ∈ x.sigs ∨ Sig.stopped ∈ x.sigs)) : Released x := by
  have h := inv_reach l k hk x hr
  obtain ⟨e1, e2, e3, e4, e5, e6, e7, e8, e9, e10, e11, e12, e13, e14, e15, e16⟩ := h
  cases hk : x.kind <;> simp only [hk] at * <;> grind [Released]

/-- **C65 (exceptions)**: the call throws only if the work has not been started, and never starts it twice; a call that has returned has started it. -/
theorem C65_throws_partial (l : Bool) (k : Kind) (hk : l = true ∨ Plain k) (x : St) (hr : Reach (init k) (step l) x) :
    (x.pc = .threw → x.started = false ∧ x.sigs = []) ∧ (x.pc = .ret → x.started = true) := by
  have h := inv_reach l k hk x hr
  exact ⟨fun hp => ⟨(h.threw hp).1, h.sig (h.threw hp).1⟩, fun hp => (h.late (.inr (.inr hp))).1⟩

/-- **C65 (alive)**: from the start of the work to its completion the operation exists. -/
theorem C65_alive_partial (l : Bool) (k : Kind) (hk : l = true ∨ Plain k) (x : St) (hr : Reach (init k) (step l) x)
    (hs : x.started = true) (hd : k ≠ .direct) : x.alive = true ↔ (x.sigs = [] ∨ x.sigs = [.error]) := by
  have h := inv_reach l k hk x hr
  have hkc := kind_const l k x hr
  have h1 := (h.live (by rcases h.st hs with h | h | h <;> simp [h]) (by rw [hkc]; exact hd)).2.2.2.2.2.2.2
  have h2 := h.len
  cases hsig : x.sigs with
  | nil => rw [hsig] at h1; cases ha : x.alive <;> simp_all
  | cons g t =>
    have : t = [] := by rw [hsig] at h2; simpa using h2
    subst this; rw [hsig] at h1
    cases ha : x.alive <;> cases g <;> simp_all

/-- **C65 (terminate)**: the program is terminated if and only if the work completes with an error. -/
theorem C65_terminates (l : Bool) (k : Kind) (x : St) (hr : Reach (init k) (step l) x) : x.terminated = true ↔ Sig.error ∈ x.sigs := by
  refine Reach.inv (fun x => x.terminated = true ↔ Sig.error ∈ x.sigs) (by simp [init]) ?_ x hr
  intro s a s' hi he
  cases a with
  | complete g =>
    simp only [step] at he
    split at he
    · cases g <;> simp only [] at he <;> (try split at he) <;> cases he <;> simp_all [St.delete]
    · cases he
  | _ => simp only [step] at he <;> (repeat' split at he) <;> cases he <;> simpa [St.delete] using hi

/-- **C65 (violated)**: if the sender's `submit` returns something that has to be stored and the work completes inside that call, the operation destroys
a result that has not been constructed, and the result is then constructed in freed memory. -/
theorem C65_violated_inline (k : Kind) (hk : ¬ Plain k) : ∃ x y, Reach (init k) (step false) x ∧ x.bad = true ∧ x.frees = 1 ∧ x.pc = .store ∧
    step false x .ok = some y ∧ y.data = x.data + 1 := by
  cases k with
  | submit =>
    obtain ⟨x, h1, h2⟩ := Reach.witness (init := init .submit) (step := step false) [.call, .ok, .ok, .ok, .ok, .complete .value, .ok]
      (fun x : St => decide (x.bad = true ∧ x.frees = 1 ∧ x.pc = .store)) (by rfl)
    simp only [decide_eq_true_eq] at h2
    exact ⟨x, { x with pc := .ret, data := x.data + 1, bad := x.bad || !x.alive }, h1, h2.1, h2.2.1, h2.2.2, by simp [step, h2.2.2], rfl⟩
  | submitNothrow =>
    obtain ⟨x, h1, h2⟩ := Reach.witness (init := init .submitNothrow) (step := step false) [.call, .ok, .ok, .ok, .ok, .complete .value, .ok]
      (fun x : St => decide (x.bad = true ∧ x.frees = 1 ∧ x.pc = .store)) (by rfl)
    simp only [decide_eq_true_eq] at h2
    exact ⟨x, { x with pc := .ret, data := x.data + 1, bad := x.bad || !x.alive }, h1, h2.1, h2.2.1, h2.2.2, by simp [step, h2.2.2], rfl⟩
  | _ => simp [Plain] at hk

/-- Inline completion of a connected operation. -/
example : ∃ x, Reach (init .connect) (step false) x ∧ x.pc = .ret ∧ x.sigs = [.value] ∧ x.allocs = 1 ∧ Released x := by
  obtain ⟨x, h1, h2⟩ := Reach.witness (init := init .connect) (step := step false) [.call, .ok, .ok, .ok, .ok, .complete .value, .ok]
    (fun x : St => decide (x.pc = .ret ∧ x.sigs = [.value] ∧ x.allocs = 1 ∧ x.frees = x.allocs ∧ x.envd = x.envs ∧ x.datad = x.data)) (by rfl)
  simp only [decide_eq_true_eq] at h2
  exact ⟨x, h1, h2.1, h2.2.1, h2.2.2.1, h2.2.2.2⟩

/-- A stored `submit` result with a later completion. -/
example : ∃ x, Reach (init .submit) (step true) x ∧ x.pc = .ret ∧ x.sigs = [.stopped] ∧ x.data = 1 ∧ Released x := by
  obtain ⟨x, h1, h2⟩ := Reach.witness (init := init .submit) (step := step true) [.call, .ok, .ok, .ok, .ok, .ok, .ok, .complete .stopped]
    (fun x : St => decide (x.pc = .ret ∧ x.sigs = [.stopped] ∧ x.data = 1 ∧ x.frees = x.allocs ∧ x.envd = x.envs ∧ x.datad = x.data)) (by rfl)
  simp only [decide_eq_true_eq] at h2
  exact ⟨x, h1, h2.1, h2.2.1, h2.2.2.1, h2.2.2.2⟩

/-- `connect` throws: environment and memory are released. -/
example : ∃ x, Reach (init .connect) (step false) x ∧ x.pc = .threw ∧ x.allocs = 1 ∧ x.envs = 1 ∧ Released x := by
  obtain ⟨x, h1, h2⟩ := Reach.witness (init := init .connect) (step := step false) [.call, .ok, .ok, .throw]
    (fun x : St => decide (x.pc = .threw ∧ x.allocs = 1 ∧ x.envs = 1 ∧ x.frees = x.allocs ∧ x.envd = x.envs ∧ x.datad = x.data)) (by rfl)
  simp only [decide_eq_true_eq] at h2
  exact ⟨x, h1, h2.1, h2.2.1, h2.2.2.1, h2.2.2.2⟩

end Verif.Detached
