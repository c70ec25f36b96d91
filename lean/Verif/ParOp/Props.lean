import Verif.ParOp.Model
/-!
# C62: operations of `parallel_scheduler` and `task_scheduler` complete once and release what they hold
-/
namespace Verif.ParOp
set_option maxHeartbeats 4000000

structure Inv (c : Cfg) (s : St) : Prop where
  sigs : s.sigs.length = if s.phase = .done then 1 else 0
  fault : s.fault = false
  alive : s.alive = false → s.phase = .made ∨ s.phase = .done
  cbAlive : s.cb = true → s.alive = true ∧ s.phase = .pool
  made : s.phase = .made → s.slot = (init c).slot ∧ s.heap = false ∧ s.args = false ∧ s.reached = false
  inner : s.phase = .inner → c.bulk = true ∧ s.slot = (init c).slot ∧ s.heap = false ∧ s.args = false ∧ s.reached = false
  pool : s.phase = .pool → s.reached = true ∧ ((s.heap = true ∧ s.slot = none) ∨ (s.heap = false ∧ s.slot = some .pool))
  done : s.phase = .done → s.heap = false ∧ (c.front = .par → s.args = false) ∧
    ((s.reached = true ∧ s.slot = none) ∨ (s.reached = false ∧ s.slot = (init c).slot))
  src : c.front = .par → c.bulk = false → c.tok = .other → s.phase = .pool → s.cb = true ∧ s.src = s.stopReq
  srcT : c.front = .task → s.cb = false ∧ s.src = false
  left : s.alive = true → s.left = false
  leftD : s.alive = false → (s.left = true ↔ c.front = .par ∧ s.reached = false)
  stp : c.bulk = false → Sig.stopped ∈ s.sigs → stopSeen c s = true
  srcLe : s.src = true → s.stopReq = true

theorem inv_init (c : Cfg) : Inv c (init c) := by
  obtain ⟨f, b, k⟩ := c
  cases f <;> constructor <;> simp [init]

theorem inv_step (c : Cfg) (s : St) (a : Act) (s' : St) (h : Inv c s) (hs : step c s a = some s') : Inv c s' := by
  have e1 := h.sigs; have e2 := h.fault; have e3 := h.alive; have e4 := h.cbAlive; have e5 := h.made; have e6 := h.inner
  have e7 := h.pool; have e8 := h.done; have e9 := h.src; have e10 := h.srcT; have e11 := h.left; have e12 := h.leftD; have e13 := h.stp
  have e14 := h.srcLe
  obtain ⟨f, b, k⟩ := c
  obtain ⟨ph, sl, hp, ar, cb, sr, st, sg, rc, al, lf, ft⟩ := s
  clear h
  cases a with
  | stop =>
    simp only [step, Option.some.injEq] at hs
    subst hs
    constructor <;> simp_all [stopSeen]
  | start throws heap =>
    simp only [step] at hs
    split at hs
    · cases hs
    · cases f <;> cases b <;> cases k <;> cases throws <;> cases heap <;> cases st <;>
        simp_all [launch, complete, unslot, stopSeen, init] <;> subst hs <;> constructor <;> simp_all [stopSeen, init]
  | inner g throws heap =>
    simp only [step] at hs
    split at hs
    · cases hs
    · cases g <;> cases f <;> cases b <;> cases k <;> cases throws <;> cases heap <;> cases st <;>
        simp_all [launch, complete, unslot, stopSeen, init] <;> subst hs <;> constructor <;> simp_all [stopSeen, init]
  | pool g =>
    simp only [step] at hs
    split at hs
    · cases hs
    · cases g <;> cases f <;> cases b <;> cases k <;> cases hp <;> cases st <;>
        simp_all [complete, unslot, stopSeen, init, backendSees] <;> subst hs <;> constructor <;> simp_all [stopSeen, init]
  | destroy =>
    simp only [step] at hs
    split at hs
    · cases hs
    · cases f <;> cases b <;> cases ph <;> simp_all [init] <;> subst hs <;> constructor <;> simp_all [stopSeen, init] <;> grind

theorem inv_reach (c : Cfg) (s : St) (hr : Reach (init c) (step c) s) : Inv c s :=
  Reach.inv (Inv c) (inv_init c) (fun s a s' h hs => inv_step c s a s' h hs) s hr

/-- **C62 (completion)**: the receiver is completed at most once, whatever the back end and the predecessor do; and a running operation is
not yet completed. -/
theorem C62_at_most_once (c : Cfg) (s : St) (hr : Reach (init c) (step c) s) :
    s.sigs.length ≤ 1 ∧ (s.sigs.length = 1 ↔ s.phase = .done) := by
  have := (inv_reach c s hr).sigs
  by_cases hp : s.phase = .done
  · rw [if_pos hp] at this; exact ⟨by omega, fun _ => hp, fun _ => this⟩
  · rw [if_neg hp] at this; exact ⟨by omega, fun h => by omega, fun h => absurd h hp⟩

/-- **C62 (safety)**: the storage never holds two objects, no object is destroyed twice, no stop callback outlives its operation state or
the completion. -/
theorem C62_safe (c : Cfg) (s : St) (hr : Reach (init c) (step c) s) :
    s.fault = false ∧ (s.phase = .done → s.cb = false) ∧ (s.alive = false → s.cb = false) := by
  have h := inv_reach c s hr
  refine ⟨h.fault, fun hp => ?_, fun ha => ?_⟩
  · cases hc : s.cb with
    | false => rfl
    | true => have := (h.cbAlive hc).2; rw [hp] at this; cases this
  · cases hc : s.cb with
    | false => rfl
    | true => have := (h.cbAlive hc).1; rw [ha] at this; cases this

/-- **C62 (stopped only if asked)**: `schedule` completes with stopped only after a stop request on a stoppable token. -/
theorem C62_stopped_only_if_asked (c : Cfg) (s : St) (hr : Reach (init c) (step c) s) (hb : c.bulk = false) (h : Sig.stopped ∈ s.sigs) :
    s.stopReq = true ∧ c.tok ≠ .never := by
  have := (inv_reach c s hr).stp hb h
  simp [stopSeen] at this
  exact ⟨this.2, this.1⟩

/-- **C62 (release)**: operation states of a `task_scheduler` leave nothing behind. -/
theorem C62_released_task (c : Cfg) (s : St) (hr : Reach (init c) (step c) s) (hf : c.front = .task) (ha : s.alive = false) : s.left = false := by
  have := (inv_reach c s hr).leftD ha
  cases hl : s.left with
  | false => rfl
  | true => have := (this.1 hl).1; rw [hf] at this; cases this

/-- **C62 (release), partial**: an operation state of a `parallel_scheduler` leaves nothing behind if the operation reached the back end;
otherwise — never started, stopped before, or the predecessor did not complete with a value — it *always* leaves the back end reference or the
predecessor's operation undestroyed. -/
theorem C62_released_partial (c : Cfg) (s : St) (hr : Reach (init c) (step c) s) (hf : c.front = .par) (ha : s.alive = false) :
    (s.left = false ↔ s.reached = true) := by
  have := (inv_reach c s hr).leftD ha
  cases hl : s.left <;> cases hx : s.reached <;> simp_all

/-- **C62 (stop requests), partial**: while the back end's operation for `schedule` runs, it sees the user's stop request, if the token is an
`inplace_stop_token` or the scheduler a `parallel_scheduler`. -/
theorem C62_stop_forwarded_partial (c : Cfg) (s : St) (hr : Reach (init c) (step c) s) (hb : c.bulk = false)
    (hc : c.front = .par ∨ c.tok ≠ .other) (hp : s.phase = .pool) : backendSees c s = (decide (c.tok ≠ .never) && s.stopReq) := by
  have h := inv_reach c s hr
  cases hk : c.tok with
  | never => simp [backendSees, hk]
  | inplace => simp [backendSees, hk, hb]
  | other =>
    have hf : c.front = .par := by rcases hc with h | h; exact h; exact absurd hk h
    have := h.src hf hb hk hp
    simp [backendSees, hk, hb, this.2]

/-- On a `task_scheduler` a stop request never reaches the back end through a token that is not an `inplace_stop_token`. -/
theorem C62_violated_stop_task (c : Cfg) (s : St) (hr : Reach (init c) (step c) s) (hf : c.front = .task) (hk : c.tok = .other) :
    backendSees c s = false := by
  have := ((inv_reach c s hr).srcT hf).2
  simp [backendSees, hk, this]

/-- For `bulk` on a `parallel_scheduler` neither. -/
theorem C62_violated_stop_bulk (c : Cfg) (s : St) (hb : c.bulk = true) (hk : c.tok = .other) : backendSees c s = false := by
  simp [backendSees, hb, hk]

/-- **C62 (progress)**: a started operation is completed, at the latest when the predecessor and the back end complete: every step other than
`stop` moves the phase forward. -/
theorem C62_progress (c : Cfg) (s : St) (hr : Reach (init c) (step c) s) (h1 : s.phase ≠ .done) (h2 : s.phase ≠ .ub) (ha : s.alive = true) :
    ∃ a s', step c s a = some s' ∧ s'.phase ≠ s.phase := by
  cases hp : s.phase with
  | made =>
    refine ⟨.start false true, ?_⟩
    cases hb : c.bulk with
    | true => exact ⟨{ s with phase := .inner }, by simp [step, ha, hp, hb], by simp⟩
    | false =>
      cases hf : c.front with
      | task => exact ⟨launch c s false true, by simp [step, ha, hp, hb, hf], by simp [launch]⟩
      | par =>
        have hk : stopSeen c { s with cb := decide (c.tok = .other), src := decide (c.tok = .other) && s.stopReq } = stopSeen c s := rfl
        cases hst : stopSeen c s with
        | true =>
          exact ⟨_, by simp only [step, hb, hf]; rw [if_neg (by simp [ha, hp]), hk, hst]; rfl, by simp [complete]⟩
        | false =>
          exact ⟨_, by simp only [step, hb, hf]; rw [if_neg (by simp [ha, hp]), hk, hst]; rfl, by simp [launch, unslot]⟩
  | inner =>
    exact ⟨.inner .stopped false false, _, by simp [step, ha, hp]; rfl, by simp [complete]⟩
  | pool =>
    exact ⟨.pool .value, _, by simp [step, ha, hp]; rfl, by simp [complete]⟩
  | done => exact absurd hp h1
  | ub => exact absurd hp h2

/-! ## Alignment -/

theorem and_not_mask (x : BitVec 64) (k : Nat) (hk : k < 64) :
    (x &&& ~~~(BitVec.ofNat 64 (2 ^ k) - 1)).toNat = x.toNat - x.toNat % 2 ^ k := by
  have hm : (BitVec.ofNat 64 (2 ^ k) - 1).toNat = 2 ^ k - 1 := by
    have h1 : 2 ^ k < 2 ^ 64 := Nat.pow_lt_pow_right (by omega) hk
    have h2 : 0 < 2 ^ k := Nat.two_pow_pos k
    simp only [BitVec.toNat_sub, BitVec.toNat_ofNat, Nat.mod_eq_of_lt h1]
    simp
    omega
  have hx : (x &&& ~~~(BitVec.ofNat 64 (2 ^ k) - 1)) + (x &&& (BitVec.ofNat 64 (2 ^ k) - 1)) = x := by
    rw [BitVec.add_eq_or_of_and_eq_zero]
    · generalize (BitVec.ofNat 64 (2 ^ k) - 1) = m
      apply BitVec.eq_of_getLsbD_eq
      intro i hi
      simp only [BitVec.getLsbD_or, BitVec.getLsbD_and, BitVec.getLsbD_not, hi]
      cases x.getLsbD i <;> cases m.getLsbD i <;> rfl
    · generalize (BitVec.ofNat 64 (2 ^ k) - 1) = m
      apply BitVec.eq_of_getLsbD_eq
      intro i hi
      simp only [BitVec.getLsbD_and, BitVec.getLsbD_not, BitVec.getLsbD_zero, hi]
      cases x.getLsbD i <;> cases m.getLsbD i <;> rfl
  have h1 : (x &&& (BitVec.ofNat 64 (2 ^ k) - 1)).toNat = x.toNat % 2 ^ k := by
    rw [BitVec.toNat_and, hm, Nat.and_two_pow_sub_one_eq_mod]
  have h2 := congrArg BitVec.toNat hx
  have h3 : (x &&& ~~~(BitVec.ofNat 64 (2 ^ k) - 1)).toNat ≤ x.toNat := by rw [BitVec.toNat_and]; exact Nat.and_le_left
  rw [BitVec.toNat_add, h1] at h2
  have h4 := Nat.mod_le x.toNat (2 ^ k)
  have h5 := x.isLt
  have h6 : (x &&& ~~~(BitVec.ofNat 64 (2 ^ k) - 1)).toNat + x.toNat % 2 ^ k = x.toNat ∨
      (x &&& ~~~(BitVec.ofNat 64 (2 ^ k) - 1)).toNat + x.toNat % 2 ^ k = x.toNat + 2 ^ 64 := by omega
  omega

/-- **C62 (alignment)**: for every alignment that is a power of two and every storage that does not wrap around the address space,
the part of the storage that is used is aligned and lies inside the storage. -/
theorem C62_alignment (p : BitVec 64) (size k : Nat) (hk : k < 64) (hw : p.toNat + size < 2 ^ 64) (q : BitVec 64) (n : Nat)
    (h : ensureAlignment p size (BitVec.ofNat 64 (2 ^ k)) = some (q, n)) :
    q.toNat % 2 ^ k = 0 ∧ p.toNat ≤ q.toNat ∧ q.toNat + n = p.toNat + size := by
  have h1 : 2 ^ k < 2 ^ 64 := Nat.pow_lt_pow_right (by omega) hk
  have h2 : 0 < 2 ^ k := Nat.two_pow_pos k
  have ha : (BitVec.ofNat 64 (2 ^ k)).toNat = 2 ^ k := by simp [Nat.mod_eq_of_lt h1]
  unfold ensureAlignment at h
  rw [ha] at h
  split at h
  · rename_i h0; cases h; exact ⟨h0, by omega, rfl⟩
  · rename_i h0
    split at h
    · cases h
    · rename_i hsz
      have hx : (p + BitVec.ofNat 64 (2 ^ k) - 1).toNat = p.toNat + 2 ^ k - 1 := by
        simp only [BitVec.toNat_sub, BitVec.toNat_add, ha]
        simp
        omega
      have hq := and_not_mask (p + BitVec.ofNat 64 (2 ^ k) - 1) k hk
      rw [hx] at hq
      simp only [Option.some.injEq, Prod.mk.injEq] at h
      obtain ⟨rfl, rfl⟩ := h
      have hd := Nat.div_add_mod (p.toNat + 2 ^ k - 1) (2 ^ k)
      have hlt := Nat.mod_lt (p.toNat + 2 ^ k - 1) h2
      have hq2 : ((p + BitVec.ofNat 64 (2 ^ k) - 1) &&& ~~~(BitVec.ofNat 64 (2 ^ k) - 1)).toNat = 2 ^ k * ((p.toNat + 2 ^ k - 1) / 2 ^ k) := by
        omega
      have hge : p.toNat ≤ ((p + BitVec.ofNat 64 (2 ^ k) - 1) &&& ~~~(BitVec.ofNat 64 (2 ^ k) - 1)).toNat := by omega
      refine ⟨by rw [hq2]; simp, hge, ?_⟩
      rw [BitVec.toNat_sub]
      omega

/-! ## What goes wrong -/

/-- Connected and destroyed without being started: the reference to the back end is never released. -/
theorem C62_violated_unstarted : ∃ s, Reach (init ⟨.par, false, .never⟩) (step ⟨.par, false, .never⟩) s ∧
    decide (s.alive = false ∧ s.left = true ∧ s.slot = some .ref) = true :=
  Reach.witness [.destroy] (fun s : St => decide (s.alive = false ∧ s.left = true ∧ s.slot = some .ref)) (by rfl)

/-- Stop requested before the start: the same, after a correct completion. -/
theorem C62_violated_stopped : ∃ s, Reach (init ⟨.par, false, .inplace⟩) (step ⟨.par, false, .inplace⟩) s ∧
    decide (s.alive = false ∧ s.left = true ∧ s.sigs = [.stopped]) = true :=
  Reach.witness [.stop, .start false false, .destroy] (fun s : St => decide (s.alive = false ∧ s.left = true ∧ s.sigs = [.stopped])) (by rfl)

/-- `bulk` whose predecessor fails: the predecessor's operation is never destroyed. -/
theorem C62_violated_bulk_error : ∃ s, Reach (init ⟨.par, true, .never⟩) (step ⟨.par, true, .never⟩) s ∧
    decide (s.alive = false ∧ s.left = true ∧ s.slot = some .inner ∧ s.sigs = [.error]) = true :=
  Reach.witness [.start false false, .inner .error false false, .destroy]
    (fun s : St => decide (s.alive = false ∧ s.left = true ∧ s.slot = some .inner ∧ s.sigs = [.error])) (by rfl)

/-- On a `task_scheduler`, stop requested through another token while the operation waits in the pool: the request is not seen. -/
theorem C62_violated_stop_task_witness : ∃ s, Reach (init ⟨.task, false, .other⟩) (step ⟨.task, false, .other⟩) s ∧
    decide (s.phase = .pool ∧ s.stopReq = true ∧ backendSees ⟨.task, false, .other⟩ s = false) = true :=
  Reach.witness [.start false false, .stop]
    (fun s : St => decide (s.phase = .pool ∧ s.stopReq = true ∧ backendSees ⟨.task, false, .other⟩ s = false)) (by rfl)

/-! ### The hypotheses are met -/

/-- `bulk` from connect to destruction, the back end's operation in the storage that the predecessor's operation occupied. -/
example : ∃ s, Reach (init ⟨.par, true, .inplace⟩) (step ⟨.par, true, .inplace⟩) s ∧
    decide (s.alive = false ∧ s.reached = true ∧ s.left = false ∧ s.sigs = [.value]) = true :=
  Reach.witness [.start false false, .inner .value false false, .pool .value, .destroy]
    (fun s : St => decide (s.alive = false ∧ s.reached = true ∧ s.left = false ∧ s.sigs = [.value])) (by rfl)
/-- `schedule` with a translated token, stopped while running; the operation is on the heap. -/
example : ∃ s, Reach (init ⟨.par, false, .other⟩) (step ⟨.par, false, .other⟩) s ∧
    decide (s.alive = false ∧ s.left = false ∧ s.sigs = [.stopped] ∧ s.src = true) = true :=
  Reach.witness [.start false true, .stop, .pool .stopped, .destroy]
    (fun s : St => decide (s.alive = false ∧ s.left = false ∧ s.sigs = [.stopped] ∧ s.src = true)) (by rfl)
/-- Storage at 1004 of 80 bytes for alignment 16: 1008, 76 bytes. -/
example : ensureAlignment 1004 80 (BitVec.ofNat 64 (2 ^ 4)) = some (1008, 76) := by decide

end Verif.ParOp
