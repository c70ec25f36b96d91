import Verif.Uring.Brk
/-!
# C55: `exec::io_uring_context` completes every operation exactly once and does not lose a wake-up

`step` is the context without restrictions; under `stepD` it is driven once after construction and once after each
`reset()`.  `kind i = .cancel` marks operations whose opcode is `IORING_OP_ASYNC_CANCEL`.
-/
namespace Verif.Uring
set_option maxHeartbeats 4000000

section
variable {n : Nat} {kind : Nat → Kind} {cap slots : Nat} {s : St}

/-- Every operation is completed at most once, and only after it was started, however the context is used. -/
theorem C55_at_most_once (h : Reach (init n kind cap slots) step s) (i : Nat) :
    s.done i ≤ 1 ∧ (s.opc i = .idle → s.done i = 0) := by
  have h1 := (reach_O h).ops i
  have := accepted_le (s.opc i)
  refine ⟨by omega, fun hi => ?_⟩
  rw [hi] at h1
  simp only [accepted] at h1; omega

/-- An operation that `start()` completes itself is completed as stopped, and an operation is completed as stopped
    only if somebody requested stop. -/
theorem C55_stopped_only_after_stop (h : Reach (init n kind cap slots) step s) (i : Nat) :
    (s.inl i = true → s.stopd i = true) ∧ (s.stopd i = true → s.everStop = true) :=
  ⟨(reach_O h).inl i, (reach_O h).stopd i⟩

/-- `schedule()` never uses the rings: its operations are completed by the driving thread (or inline by `start()`). -/
theorem C55_schedule_not_in_ring (h : Reach (init n kind cap slots) step s) {i : Nat} (hi : kind i = .ready) :
    T.op i ∉ s.sq ∧ T.op i ∉ s.ring ∧ T.op i ∉ s.cq := by
  have ho := reach_O h
  have hk : s.kind = kind := (reach_C h).2.1
  have hr : isReady s (.op i) = true := by simp [isReady, hk, hi]
  refine ⟨fun hm => ?_, fun hm => ?_, fun hm => ?_⟩
  · rw [ho.ksq _ hm] at hr; cases hr
  · rw [ho.kring _ hm] at hr; cases hr
  · rw [ho.kcq _ hm] at hr; cases hr

/-- The rings never overflow, and the wake-up operation is linked at most once and outstanding at most once. -/
theorem C55_rings_bounded_partial (hq : 2 ≤ slots) (hc : slots ≤ cap) (h : Reach (init n kind cap slots) stepD s)
    (hk : (∀ i, kind i ≠ .cancel) ∨ s.everStop = false) :
    s.sq.length ≤ slots ∧ s.sq.length + s.ring.length + s.cq.length ≤ cap ∧ s.bad = false ∧
    (s.pend ++ s.tasks ++ s.out ++ s.sq ++ s.ring ++ s.cq).count .wake ≤ 1 := by
  obtain ⟨hd, hn⟩ := reach_D hq hc h hk
  obtain ⟨-, -, hcap, hsl⟩ := reach_C (reach_weak h)
  have hcap : s.cap = cap := hcap
  have hsl : s.slots = slots := hsl
  have h1 := hd.len
  have h2 := hd.sqb
  have h3 := hd.mxb
  have h4 := hd.cw
  refine ⟨by omega, ?_, hd.bad, by simpa only [cW, List.count_append] using h4⟩
  cases hf : final s.pc with
  | false => have := hd.capb hf; omega
  | true =>
    have hex : exiting s.pc = true := by
      unfold exiting; split <;> first | rfl | exact hf
    have ht := (hd.exi hex).1
    have := hn hf
    omega

/-- A run of internal steps (the driving thread, the kernel, calls already begun) is finite. -/
theorem C55_no_livelock (f : Nat → St) :
    ¬ ∀ m, ∃ a, internal a = true ∧ step (f m) a = some (f (m + 1)) := by
  intro hf
  have key : ∀ t, Acc Less t → ∀ m, f m = t → False := by
    intro t ht
    induction ht with
    | intro t _ ih =>
      rintro m rfl
      obtain ⟨a, ha, hs⟩ := hf m
      exact ih (f (m + 1)) (less_step ha hs) (m + 1) rfl
  exact key _ (less_wf.apply (f 0)) 0 rfl

/-- When `run_until_stopped()` has returned, every operation started so far has been completed, and the door is
    closed: `start()` completes later ones itself. Missing: `finish()`/`run_until_empty()`, cancellation operations,
    and driving the context again without `reset()`. -/
theorem C55_return_complete_partial (hq : 2 ≤ slots) (hc : slots ≤ cap) (h : Reach (init n kind cap slots) stepD s)
    (hk : ∀ i, kind i ≠ .cancel) (hb : s.everBrk = false) (hp : s.pc = .idle) (hf : s.fresh = false) :
    s.closed = true ∧ ∀ i, s.opc i ≠ .idle → s.done i = 1 :=
  returned_done (reach_D hq hc h (Or.inl hk)).1 hp hf hb

/-- When it has returned without a request to stop (`finish()`, `run_until_empty()`), every operation that was
    started is completed or still in the request queue: none is left in the rings. -/
theorem C55_return_empty_partial (hq : 2 ≤ slots) (hc : slots ≤ cap) (h : Reach (init n kind cap slots) stepD s)
    (hk : s.everStop = false) (hp : s.pc = .idle) (hf : s.fresh = false) (i : Nat) (hi : i ∉ s.req) :
    s.opc i ≠ .idle → s.opc i ≠ .acc → s.done i = 1 := by
  intro h1 h2
  obtain ⟨hd, -⟩ := reach_D hq hc h (Or.inr hk)
  have hsr : s.stopReq = false := by
    rcases hx : s.stopReq with _ | _
    · rfl
    · have := hd.o.ever hx; rw [hk] at this; cases this
  have hcw := hd.cw1 hf (by simp [hp]) hsr
  have hl := hd.loc (by rw [hp]; rfl)
  have htk := hd.o.tk (by rw [hp]; rfl)
  have hr := hd.rdy (by rw [hp]; rfl)
  have hpn := hd.pend1 (by rw [hp]; rfl)
  have hex := (hd.exi (by rw [hp]; rfl)).1
  have hlen := hd.len
  have hops := hd.o.ops i
  have hrq : s.req.count i = 0 := List.count_eq_zero.2 hi
  have hall : ∀ l : List T, l.count .wake + l.count (.op i) ≤ l.length := by
    intro l
    induction l with
    | nil => simp
    | cons t l ih => cases t <;> simp [List.count_cons] <;> (try split) <;> omega
  have q1 := hall s.sq
  have q2 := hall s.ring
  have q3 := hall s.cq
  simp only [cW, hpn, htk.1, htk.2, List.count_nil] at hcw
  simp only [cI, hrq, hr, hpn, htk.1, htk.2, hd.lost, List.count_nil] at hops
  cases ho : s.opc i with
  | idle => exact absurd ho h1
  | acc => exact absurd ho h2
  | _ => simp only [ho, accepted] at hops; omega

/-- No lost wake-up: if no internal step is possible (so the kernel has completed what it was given), every started
    operation has been completed; if stop was requested, `run_until_stopped()` has returned.
    `cnt …` is the number of I/O operations. Missing: more I/O operations than submission slots, cancellation
    operations, `finish()` together with a request to stop, driving the context again without `reset()`. -/
theorem C55_no_lost_wakeup_partial (hq : 2 ≤ slots) (hc : slots ≤ cap) (h : Reach (init n kind cap slots) stepD s)
    (hk : (∀ i, kind i ≠ .cancel) ∨ s.everStop = false)
    (hfew : cnt (fun i => decide (kind i ≠ .ready)) n + 1 < slots)
    (hf : s.fresh = false) (hb : s.pc = .idle → s.everBrk = false)
    (hstuck : ∀ a, internal a = true → step s a = none) :
    (∀ i, s.opc i ≠ .idle → s.done i = 1) ∧ (s.stopReq = true → s.pc = .idle) := by
  obtain ⟨hd, -⟩ := reach_D hq hc h hk
  obtain ⟨hn, hkd, -, hsl⟩ := reach_C (reach_weak h)
  have hn : s.n = n := hn
  have hkd : s.kind = kind := hkd
  have hsl : s.slots = slots := hsl
  by_cases hp : s.pc = .idle
  · exact ⟨(returned_done hd hp hf (hb hp)).2, fun _ => hp⟩
  obtain ⟨hw, hcq⟩ := stuck_wait hd hstuck hp
  have hpn := few_pend hd (by rw [hn, hkd, hsl]; exact hfew) (Or.inr (Or.inr hw))
  have hsq := hd.waitq hw
  have htk := hd.o.tk (by rw [hw]; rfl)
  have hl := hd.loc (by rw [hw]; rfl)
  have hrd := hd.rdy (by rw [hw]; rfl)
  have hlen := hd.len
  have hent := hd.ent (Or.inr hw)
  have hwr : T.wake ∈ s.ring := by
    cases hr : s.ring with
    | nil => simp [hsq, hr, hcq] at hlen; omega
    | cons t r =>
      cases t with
      | wake => simp
      | op i => exact absurd (by rw [hr]; simp) (stuck_ring hstuck i)
  have hefd := stuck_wake hstuck hwr
  have hsr : s.stopReq = false := by
    rcases hx : s.stopReq with _ | _
    · rfl
    · have := hd.stok hx (stuck_owe hstuck).1 (by
        have := List.count_pos_iff.2 hwr
        simp only [cW']; omega)
      rw [hefd] at this; cases this
  refine ⟨fun i hi => ?_, fun hx => by rw [hsr] at hx; cases hx⟩
  have hret : s.opc i = .ret := (stuck_threads hd.o hstuck i).resolve_left hi
  have hrq : s.req.count i = 0 := by
    refine List.count_eq_zero.2 fun hm => ?_
    rcases hd.tok (by rw [hw]; rfl) i hm hret with hx | hx
    · rw [hefd] at hx; cases hx
    · rw [hcq] at hx; simp at hx
  have hrg : s.ring.count (.op i) = 0 := List.count_eq_zero.2 (stuck_ring hstuck i)
  have hops := hd.o.ops i
  simp only [cI, hrq, hrd, hpn, htk.1, htk.2, hd.lost, hsq, hrg, hcq, List.count_nil, hret, accepted] at hops
  omega

/-- `finish()` is noticed: if no internal step is possible and the flag it set is still set, nobody is waiting in
    `run_until_stopped()` for it. -/
theorem C55_finish_noticed_partial (hq : 2 ≤ slots) (hc : slots ≤ cap) (h : Reach (init n kind cap slots) stepD s)
    (hk : s.everStop = false) (hstuck : ∀ a, internal a = true → step s a = none)
    (hbrk : s.brk = true) : s.pc = .idle := by
  obtain ⟨hd, -⟩ := reach_D hq hc h (Or.inr hk)
  apply Classical.byContradiction
  intro hp
  obtain ⟨hw, hcq⟩ := stuck_wait hd hstuck hp
  have hB : InvB s := Reach.inv InvB (by intro hx; simp [init] at hx) (fun _ _ _ hi he => invB_step hi he) s
    (reach_weak h)
  have hsq := hd.waitq hw
  have hl := hd.loc (by rw [hw]; rfl)
  have hlen := hd.len
  have hent := hd.ent (Or.inr hw)
  have hcw := hd.cw
  have hall : s.ring.length = s.ring.count .wake := by
    symm; rw [List.count_eq_length]
    intro t ht
    cases t with
    | wake => rfl
    | op i => exact absurd ht (stuck_ring hstuck i)
  simp only [hsq, hcq, List.length_nil] at hlen
  simp only [cW] at hcw
  rcases hB (Or.inr hw) hbrk (stuck_owe hstuck).2 with hx | hx | hx
  · have : T.wake ∈ s.ring := List.count_pos_iff.1 (by omega)
    rw [stuck_wake hstuck this] at hx; cases hx
  · rw [hcq] at hx; simp at hx
  · omega

end

/-! ## Non-vacuity -/

def drvs (k : Nat) : List Act := List.replicate k .drv
def submit (i : Nat) : List Act := [.start i, .push i, .dec i, .wakeOp i]

/-- A sufficient condition for "no internal step is possible". -/
theorem stuck_of {s : St} (h1 : drv s = none) (h2 : s.pc ≠ .enter) (h3 : ∀ i, T.op i ∉ s.ring) (h4 : s.efd = false ∨ T.wake ∉ s.ring)
    (h5 : ∀ i < s.n, s.opc i = .idle ∨ s.opc i = .ret) (h6 : s.oweS = 0) (h7 : s.oweF = 0) :
    ∀ a, internal a = true → step s a = none := by
  intro a ha
  cases a with
  | drv => exact h1
  | enter k => simp [step, h2]
  | kop i => simp [step, h3 i]
  | kwake => rcases h4 with h4 | h4 <;> simp [step, h4]
  | push i =>
    simp only [step]; rw [if_neg]; rintro ⟨hi, ho⟩; rcases h5 i hi with h | h <;> rw [h] at ho <;> cases ho
  | dec i =>
    simp only [step]; rw [if_neg]; rintro ⟨hi, ho⟩; rcases h5 i hi with h | h <;> rw [h] at ho <;> cases ho
  | wakeOp i =>
    simp only [step]; rw [if_neg]; rintro ⟨hi, ho⟩; rcases h5 i hi with h | h <;> rw [h] at ho <;> cases ho
  | wakeStop => simp [step, h6]
  | wakeFin => simp [step, h7]
  | _ => simp [internal] at ha

/-- A decidable version. -/
def stuckB (s : St) : Bool :=
  (drv s).isNone && decide (s.pc ≠ .enter) && s.ring.all (fun t => decide (t = .wake)) &&
  (!s.efd || s.ring.all (fun t => decide (t ≠ .wake))) &&
  (List.range s.n).all (fun i => decide (s.opc i = .idle) || decide (s.opc i = .ret)) &&
  decide (s.oweS = 0) && decide (s.oweF = 0)

theorem stuck_of_stuckB {s : St} (h : stuckB s = true) : ∀ a, internal a = true → step s a = none := by
  simp only [stuckB, Bool.and_eq_true, decide_eq_true_eq, List.all_eq_true, Bool.or_eq_true, Bool.not_eq_true',
    Option.isNone_iff_eq_none, List.mem_range] at h
  obtain ⟨⟨⟨⟨⟨⟨h1, h2⟩, h3⟩, h4⟩, h5⟩, h6⟩, h7⟩ := h
  refine stuck_of h1 h2 (fun i hi => by simpa using h3 _ hi) ?_ h5 h6 h7
  rcases h4 with h4 | h4
  · exact Or.inl h4
  · exact Or.inr fun hm => by simpa using h4 _ hm

/-- operation 0 is `schedule()`, operation 1 is an I/O operation -/
def kind2 (i : Nat) : Kind := if i = 0 then .ready else .io

/-- Both are started, the I/O operation completes, stop is requested: both are completed and the context returns. -/
example : ∃ s, Reach (init 2 kind2 8 4) stepD s ∧ (decide (s.pc = .idle) && !s.fresh && !s.everBrk && s.stopReq &&
    decide (s.done 0 = 1) && decide (s.done 1 = 1) && stuckB s) = true :=
  Reach.witness ([.run false] ++ submit 0 ++ submit 1 ++ drvs 20 ++ [.enter 2, .reqStop, .wakeStop, .kwake, .kop 1] ++ drvs 15)
    _ (by rfl)

/-- Without a request to stop the context ends up waiting, with both completed. -/
example : ∃ s, Reach (init 2 kind2 8 4) stepD s ∧ (decide (s.pc = .wait) && !s.fresh && !s.everStop &&
    decide (s.done 0 = 1) && decide (s.done 1 = 1) && stuckB s) = true :=
  Reach.witness ([.run false] ++ submit 0 ++ submit 1 ++ drvs 20 ++ [.enter 2, .kop 1, .kwake] ++ drvs 15 ++ [.enter 1])
    _ (by rfl)

example : cnt (fun i => decide (kind2 i ≠ .ready)) 2 + 1 < 4 := by decide

/-- `finish()` while the context waits makes it return. -/
example : ∃ s, Reach (init 2 kind2 8 4) stepD s ∧ (decide (s.pc = .idle) && !s.fresh && !s.everStop &&
    decide (s.done 0 = 1) && s.everBrk) = true :=
  Reach.witness ([.run false] ++ submit 0 ++ drvs 19 ++ [.enter 1, .finish, .wakeFin, .kwake] ++ drvs 16) _ (by rfl)

/-! ## Where the context departs from the property -/

/-- Driving the context again after `finish()` submits the wake-up operation a second time (`:559-563`: "This can
    only happen for the very first pass"); `run_until_empty()` then never returns although there is no work. -/
theorem C55_rerun_hangs : ∃ s, Reach (init 0 kind2 4 2) step s ∧
    (∀ a, internal a = true → step s a = none) ∧
    s.pc = .wait ∧ s.brk = true ∧ s.req = [] ∧ s.ring = [.wake, .wake] := by
  obtain ⟨s, h1, h2⟩ := Reach.witness (init := init 0 kind2 4 2) (step := step)
    ([.run false] ++ drvs 10 ++ [.finish] ++ drvs 3 ++ [.wakeFin, .run true] ++ drvs 11 ++ [.enter 2, .kwake] ++
      drvs 14 ++ [.enter 1])
    (fun s : St => stuckB s && decide (s.pc = .wait) && s.brk && decide (s.req = []) && decide (s.ring = [.wake, .wake]))
    (by rfl)
  simp only [Bool.and_eq_true, decide_eq_true_eq] at h2
  exact ⟨s, h1, stuck_of_stuckB h2.1.1.1.1, h2.1.1.1.2, h2.1.1.2, h2.1.2, h2.2⟩

/-- Driving it again after a stop, without `reset()`, returns at once although nobody requested stop since, and with
    the door open: an operation started then is never completed. -/
theorem C55_restart_returns_at_once : ∃ s, Reach (init 1 kind2 4 2) step s ∧
    (∀ a, internal a = true → step s a = none) ∧
    s.pc = .idle ∧ s.stopReq = false ∧ s.everBrk = false ∧ s.opc 0 = .ret ∧ s.done 0 = 0 := by
  obtain ⟨s, h1, h2⟩ := Reach.witness (init := init 1 kind2 4 2) (step := step)
    ([.run false, .reqStop, .wakeStop] ++ drvs 11 ++ [.run false] ++ drvs 5 ++ submit 0)
    (fun s : St => stuckB s && decide (s.pc = .idle) && !s.stopReq && !s.everBrk && decide (s.opc 0 = .ret) && decide (s.done 0 = 0))
    (by rfl)
  simp only [Bool.and_eq_true, decide_eq_true_eq, Bool.not_eq_true'] at h2
  exact ⟨s, h1, stuck_of_stuckB h2.1.1.1.1.1, h2.1.1.1.1.2, h2.1.1.1.2, h2.1.1.2, h2.1.2, h2.2⟩

/-- A cancellation operation accepted while the context is closing is put into the submission ring by the final
    `submit` and never completed (`:621` asserts that this does not happen). -/
theorem C55_cancel_lost : ∃ s, Reach (init 1 (fun _ => .cancel) 4 2) stepD s ∧
    (∀ a, internal a = true → step s a = none) ∧
    s.pc = .idle ∧ s.closed = true ∧ s.everBrk = false ∧ s.opc 0 = .ret ∧ s.done 0 = 0 ∧ s.sq = [.op 0] := by
  obtain ⟨s, h1, h2⟩ := Reach.witness (init := init 1 (fun _ => .cancel) 4 2) (step := stepD)
    ([.run false, .reqStop, .wakeStop] ++ drvs 4 ++ submit 0 ++ drvs 8)
    (fun s : St => stuckB s && decide (s.pc = .idle) && s.closed && !s.everBrk && decide (s.opc 0 = .ret) && decide (s.done 0 = 0) &&
      decide (s.sq = [.op 0]))
    (by rfl)
  simp only [Bool.and_eq_true, decide_eq_true_eq, Bool.not_eq_true'] at h2
  exact ⟨s, h1, stuck_of_stuckB h2.1.1.1.1.1.1, h2.1.1.1.1.1.2, h2.1.1.1.1.2, h2.1.1.1.2, h2.1.1.2, h2.1.2, h2.2⟩

/-- `finish()` during a stop: the loop ends when one entry is outstanding, which it takes for the wake-up operation;
    the context returns with an I/O operation in the kernel (`:598` asserts that there is none). -/
theorem C55_finish_during_stop : ∃ s, Reach (init 1 (fun _ => .io) 4 2) stepD s ∧
    s.pc = .idle ∧ s.closed = true ∧ s.opc 0 = .ret ∧ s.done 0 = 0 ∧ s.ring = [.op 0] := by
  obtain ⟨s, h1, h2⟩ := Reach.witness (init := init 1 (fun _ => .io) 4 2) (step := stepD)
    ([.run false] ++ submit 0 ++ drvs 12 ++ [.enter 2, .reqStop, .wakeStop, .kwake, .finish] ++ drvs 21)
    (fun s : St => decide (s.pc = .idle) && s.closed && decide (s.opc 0 = .ret) && decide (s.done 0 = 0) &&
      decide (s.ring = [.op 0]))
    (by rfl)
  simp only [Bool.and_eq_true, decide_eq_true_eq] at h2
  exact ⟨s, h1, h2.1.1.1.1, h2.1.1.1.2, h2.1.1.2, h2.1.2, h2.2⟩

/-- Once the stop flag is set the wake-up operation is not submitted again (`:744-750`); if it was consumed by an
    earlier write, the cancellation operations that the stop callbacks then submit are not noticed: the context waits
    for the I/O operation, with the eventfd readable and nobody reading it. -/
theorem C55_cancel_not_noticed : ∃ s, Reach (init 2 (fun i => if i = 0 then .io else .cancel) 4 2) stepD s ∧
    s.pc = .wait ∧ s.cq = [] ∧ s.ring = [.op 0] ∧ s.pend = [] ∧ s.sq = [] ∧ s.opc 1 = .ret ∧ s.req = [1] ∧
    s.efd = true ∧ s.oweS = 0 := by
  obtain ⟨s, h1, h2⟩ := Reach.witness (init := init 2 (fun i => if i = 0 then .io else .cancel) 4 2) (step := stepD)
    ([.run false] ++ submit 0 ++ drvs 12 ++ [.enter 2, .reqStop, .kwake] ++ drvs 13 ++ [.enter 0, .wakeStop] ++ submit 1)
    (fun s : St => decide (s.pc = .wait) && decide (s.cq = []) && decide (s.ring = [.op 0]) && decide (s.pend = []) && decide (s.sq = []) &&
      decide (s.opc 1 = .ret) && decide (s.req = [1]) && s.efd && decide (s.oweS = 0))
    (by rfl)
  simp only [Bool.and_eq_true, decide_eq_true_eq] at h2
  obtain ⟨⟨⟨⟨⟨⟨⟨⟨q1, q2⟩, q3⟩, q4⟩, q5⟩, q6⟩, q7⟩, q8⟩, q9⟩ := h2
  exact ⟨s, h1, q1, q2, q3, q4, q5, q6, q7, q8, q9⟩

/-- operations 0 and 1 are I/O, 2 and 3 are `schedule()` -/
def kind4 (i : Nat) : Kind := if i < 2 then .io else .ready

/-- With a full submission ring the wake-up operation stays pending while the context waits: an operation of
    `schedule()` is not noticed until one of the I/O operations completes. -/
theorem C55_full_ring_misses_wakeup : ∃ s, Reach (init 4 kind4 4 2) stepD s ∧
    s.everStop = false ∧ s.everBrk = false ∧ s.pc = .wait ∧ s.cq = [] ∧ s.ring = [.op 0, .op 1] ∧ s.pend = [.wake] ∧
    s.opc 3 = .ret ∧ s.done 3 = 0 ∧ s.req = [3] ∧ s.efd = true := by
  obtain ⟨s, h1, h2⟩ := Reach.witness (init := init 4 kind4 4 2) (step := stepD)
    ([.run false] ++ drvs 11 ++ [.enter 1] ++ submit 0 ++ submit 1 ++ submit 2 ++ [.intr] ++ drvs 13 ++ [.kwake] ++
      drvs 10 ++ [.enter 2] ++ submit 3)
    (fun s : St => !s.everStop && !s.everBrk && decide (s.pc = .wait) && decide (s.cq = []) && decide (s.ring = [.op 0, .op 1]) &&
      decide (s.pend = [.wake]) && decide (s.opc 3 = .ret) && decide (s.done 3 = 0) && decide (s.req = [3]) && s.efd)
    (by rfl)
  simp only [Bool.and_eq_true, decide_eq_true_eq, Bool.not_eq_true'] at h2
  obtain ⟨⟨⟨⟨⟨⟨⟨⟨⟨q0, q1⟩, q2⟩, q3⟩, q4⟩, q5⟩, q6⟩, q7⟩, q8⟩, q9⟩ := h2
  exact ⟨s, h1, q0, q1, q2, q3, q4, q5, q6, q7, q8, q9⟩

/-! ## The sender returned by `run()` -/

/-- The completions of its receiver. -/
inductive Done
  | value | error | stopped
  deriving DecidableEq, Repr

/-- `__run_op::start` (`:651-681`). `throws`: driving the context throws; `stop`: `stop_requested()` afterwards. -/
def runOp (throws stop : Bool) : List Done :=
  (if throws then [.error] else []) ++ [if stop then .stopped else .value]

/-- It completes exactly once unless driving the context throws … -/
theorem C55_run_sender_once_partial (throws stop : Bool) :
    (runOp throws stop).length = 1 ↔ throws = false := by
  cases throws <;> simp [runOp]

/-- … and then twice: the handler does not return after `set_error`. -/
theorem C55_run_sender_twice (stop : Bool) : ∃ d, runOp true stop = [.error, d] := ⟨_, rfl⟩

end Verif.Uring
