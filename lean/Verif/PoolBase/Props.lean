import Verif.PoolBase.Model
import Mathlib.Tactic.IntervalCases
/-! # `bulk` on `thread_pool_base` pools — C68 -/
namespace Verif.PoolBase
open Verif.Bulk (Ev St isCompletion)

variable {w : Nat} {sg : Bool} {shape : BitVec w} {par : BitVec 32} {s : St}

/-- Specification: the pool's parallelism is representable in the shape type. -/
def Fits (w : Nat) (signed : Bool) (par : BitVec 32) : Prop :=
  par.toNat < 2 ^ (if signed then w - 1 else w)

/-- Specification: the shape is a valid iteration count (not negative). -/
def Valid {w : Nat} (signed : Bool) (shape : BitVec w) : Prop :=
  signed = true → shape.toNat < 2 ^ (w - 1)

theorem pow_split (hw : 0 < w) : 2 ^ w = 2 * 2 ^ (w - 1) := by
  obtain ⟨k, rfl⟩ : ∃ k, w = k + 1 := ⟨w - 1, by omega⟩
  rw [Nat.pow_succ]; simp; omega

/-- If the parallelism is representable in the shape type, the number of tasks is the smaller of the
    shape and the parallelism. -/
theorem C68_agents_partial (hw : 0 < w) (hv : Valid sg shape) (hf : Fits w sg par) :
    (agents sg shape par).toNat = min shape.toNat par.toNat := by
  have h2 := pow_split hw
  have hp32 := par.isLt
  cases sg with
  | false =>
    simp only [Fits, Bool.false_eq_true, if_false] at hf
    have hp : (par.setWidth w).toNat = par.toNat := by
      rw [BitVec.toNat_setWidth, Nat.mod_eq_of_lt hf]
    simp only [agents, Bool.false_eq_true, if_false, BitVec.ult, hp]
    by_cases h : par.toNat < shape.toNat
    · simp only [h, decide_true, if_true, BitVec.toNat_setWidth, Nat.mod_eq_of_lt hf]
      omega
    · simp only [h, decide_false, BitVec.toNat_setWidth]
      rw [if_neg (by simp), Nat.mod_eq_of_lt (by omega)]; omega
  | true =>
    simp only [Fits, if_true] at hf
    have hs := hv rfl
    have hp : (par.setWidth w).toNat = par.toNat := by
      rw [BitVec.toNat_setWidth, Nat.mod_eq_of_lt (by omega)]
    have hpi : (par.setWidth w).toInt = par.toNat := by
      rw [BitVec.toInt_eq_toNat_of_lt (by omega), hp]
    have hsi : shape.toInt = shape.toNat := BitVec.toInt_eq_toNat_of_lt (by omega)
    simp only [agents, if_true, BitVec.slt, hpi, hsi]
    by_cases h : par.toNat < shape.toNat
    · rw [if_pos (by simpa using h)]
      simp only [BitVec.signExtend, hpi, BitVec.toNat_ofInt]
      omega
    · rw [if_neg (by simpa using h)]
      simp only [BitVec.signExtend, hsi, BitVec.toNat_ofInt]
      omega

/-- With a representable parallelism the operation is the `static_thread_pool` one. -/
theorem step_eq (hw : 0 < w) (hv : Valid sg shape) (hf : Fits w sg par) :
    step sg shape par = Bulk.step shape.toNat (Bulk.agents true shape.toNat par.toNat) := by
  simp [step, Bulk.agents, C68_agents_partial hw hv hf]

theorem reach_eq (hw : 0 < w) (hv : Valid sg shape) (hf : Fits w sg par)
    (h : Reachable sg shape par s) :
    Bulk.Reachable shape.toNat (Bulk.agents true shape.toNat par.toNat) s := by
  rw [Reachable, step_eq hw hv hf] at h; exact h

/-- At most one completion, each index of the shape called at most once and none outside it, and the
    operation is not touched after completion — for every width, shape, pool size (representable in
    the shape type), interleaving and pattern of throwing calls. -/
theorem C68_safe_partial (hw : 0 < w) (hv : Valid sg shape) (hf : Fits w sg par)
    (hp : 0 < par.toNat) (h : Reachable sg shape par s) :
    s.log.countP isCompletion ≤ 1 ∧
    (∀ i, s.log.count (.call i) ≤ 1 ∧ (shape.toNat ≤ i → s.log.count (.call i) = 0)) ∧
    s.ub = false :=
  ⟨Bulk.C37_completes_at_most_once hp (reach_eq hw hv hf h),
   Bulk.C37_each_index_at_most_once hp (reach_eq hw hv hf h),
   Bulk.C37_no_use_after_completion hp (reach_eq hw hv hf h)⟩

/-- A value completion means every index was called exactly once and nothing was thrown; an error
    completion carries an exception thrown by the function. -/
theorem C68_outcome_partial (hw : 0 < w) (hv : Valid sg shape) (hf : Fits w sg par)
    (hp : 0 < par.toNat) (h : Reachable sg shape par s) :
    (Ev.value ∈ s.log → (∀ i < shape.toNat, s.log.count (.call i) = 1) ∧ s.thrown = []) ∧
    (∀ e, Ev.error e ∈ s.log → e ∈ s.thrown) :=
  ⟨fun hm => ⟨(Bulk.C37_value_means_all_done hp (reach_eq hw hv hf h) hm).1,
      (Bulk.C37_value_means_all_done hp (reach_eq hw hv hf h) hm).2.1⟩,
   fun e hm => (Bulk.C37_error_was_thrown hp (reach_eq hw hv hf h) e hm).1⟩

/-- No lost completion: once nothing can move any more the receiver has been completed exactly once,
    with a value if nothing was thrown and with an error otherwise. -/
theorem C68_completes_partial (hw : 0 < w) (hv : Valid sg shape) (hf : Fits w sg par)
    (hp : 0 < par.toNat) (h : Reachable sg shape par s) (hst : s.started = true)
    (hq : ∀ a, step sg shape par s a = none) :
    s.log.countP isCompletion = 1 ∧ (s.thrown = [] → Ev.value ∈ s.log) ∧
      (s.thrown ≠ [] → ∃ e, Ev.error e ∈ s.log) := by
  rw [step_eq hw hv hf] at hq
  exact Bulk.C37_completes hp (reach_eq hw hv hf h) hst hq

/-! ## The parallelism does not fit the shape type: the code misbehaves -/

/-- If the truncated parallelism is zero (a multiple of `2^w`), a bulk operation over any non-empty
    valid shape never completes: no task is ever enqueued. -/
theorem C68_hang (hw : 0 < w) (hv : Valid sg shape) (hne : shape.toNat ≠ 0)
    (hz : par.toNat % 2 ^ w = 0) (h : Reachable sg shape par s) :
    s.log = [] ∧ (s.started = true → ∀ a, step sg shape par s a = none) := by
  have hp0 : (par.setWidth w).toNat = 0 := by rw [BitVec.toNat_setWidth, hz]
  have hp0' : par.setWidth w = 0#w := BitVec.eq_of_toNat_eq (by simp [hp0])
  have ha : (agents sg shape par).toNat = 0 := by
    cases sg with
    | false =>
      simp only [agents, Bool.false_eq_true, if_false, BitVec.ult, hp0]
      rw [if_pos (by simp; omega)]; simp [hp0']
    | true =>
      have hs := hv rfl
      have h2 := pow_split hw
      have hsi : shape.toInt = shape.toNat := BitVec.toInt_eq_toNat_of_lt (by omega)
      simp only [agents, if_true, BitVec.slt, hp0', BitVec.toInt_zero, hsi]
      rw [if_pos (by simp; omega)]; simp [BitVec.signExtend]
  have key : s.log = [] ∧ (∀ a, s.pc a = .waiting) := by
    refine Reach.inv (fun s => s.log = [] ∧ ∀ a, s.pc a = .waiting) ⟨rfl, fun _ => rfl⟩ ?_ s h
    intro s a s' hi he
    cases a <;> simp [step, Bulk.step, ha, hi.2, hne] at he
    obtain ⟨_, rfl⟩ := he
    exact hi
  refine ⟨key.1, fun hst a => ?_⟩
  cases a <;> simp [step, Bulk.step, ha, key.2, hst]

/-- The full property is false of the code: a pool of 256 threads and a `uint8_t` shape of 5 reach a
    state in which the predecessor has completed, nothing can move, and the receiver was never
    completed. -/
theorem C68_violation :
    ∃ s, Reachable false 5#8 256#32 s ∧ s.started = true ∧
      (∀ a, step false 5#8 256#32 s a = none) ∧ s.log.countP isCompletion = 0 := by
  obtain ⟨s, hr, hs⟩ := Reach.witness (init := Bulk.init) (step := step false 5#8 256#32)
    [.pred] (fun s : St => s.started) (by rfl)
  have hh := C68_hang (sg := false) (shape := 5#8) (par := 256#32) (by omega) (by simp [Valid])
    (by decide) (by decide) hr
  exact ⟨s, hr, hs, hh.2 hs, by simp [hh.1]⟩

/-- And a signed narrow shape type on a pool of 200 threads asks for more than four billion tasks for
    five indices. -/
theorem C68_blowup : (agents true 5#8 200#32).toNat = 4294967240 := by decide

/-! ## Concrete cases meeting the hypotheses -/
example : Fits 32 true 8#32 ∧ Valid true 5#32 ∧ (agents true 5#32 2#32).toNat = 2 := by
  refine ⟨by simp [Fits], fun _ => by decide, by decide⟩
example : ((exec (step true 5#32 2#32) Bulk.init Bulk.demo2).map fun s => (s.log, s.ub)) =
    some ([.value, .call 4, .call 2, .call 3, .call 1, .call 0], false) := by rfl

end Verif.PoolBase
