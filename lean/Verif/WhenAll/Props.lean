import Verif.WhenAll.Inv
/-!
# `when_all`: properties C16, C17, C18

`s.results` lists the completions delivered to `when_all`'s receiver. `s.outcome i` is what child `i` did.
The code has a race (witness `C16_double_completion`): when stop is requested on the receiver's token between
the moment the last child's arrival brings the count to zero and the moment the stop callback is deregistered,
the callback brings the count from 0 to 1 and back to 0, and the receiver is completed a second time.
`s.late` records exactly that event.
-/
namespace Verif.WhenAll

/-- C16 (what holds): unless the stop callback starts after the last arrival, the receiver is completed at most
once and the operation state is not used afterwards; and in every case only after all `n` children completed.
Missing: the case `late`, where the code is wrong. -/
theorem C16_at_most_once_partial {c : Cfg} (hn : 1 ≤ c.n) {s : St} (h : Reachable c s) :
    (s.late = false → s.results.length ≤ 1 ∧ s.uaf = false) ∧
    (s.results ≠ [] → ∀ i < c.n, ∃ o, s.outcome i = some o) := by
  have hi := inv_reach hn h
  refine ⟨fun hl => ⟨?_, hi.uaf hl⟩, fun hr i hlt => ?_⟩
  · by_cases h0 : s.count = 0
    · have := hi.fin2 h0 hl; omega
    · have := hi.fin0 (by omega) hl; omega
  · have hw := hi.finAll (by have := List.length_pos_iff.2 hr; omega) i hlt
    cases ho : s.outcome i with
    | some o => exact ⟨o, rfl⟩
    | none => rw [(hi.out i).1 ho] at hw; simp [Pc.w] at hw

/-- The stop callback never starts late if stop is never requested on the receiver's token. -/
theorem late_needs_stop {c : Cfg} (hn : 1 ≤ c.n) {s : St} (h : Reachable c s) (hp : s.parentStopped = false) :
    s.late = false := by
  have key : ∀ s, Reachable c s → s.late = true → s.parentStopped = true := by
    intro s h
    induction h with
    | refl => simp [init]
    | @tail s s' a hr hs ih =>
      have hi := inv_reach hn hr
      cases a with
      | start => simp only [step] at hs; (repeat' split at hs) <;> cases hs <;> simp_all
      | complete i o => simp only [step] at hs; (repeat' split at hs) <;> cases hs <;> simp_all
      | parentStop => simp only [step] at hs; (repeat' split at hs) <;> cases hs <;> simp_all
      | step a =>
        simp only [step, stepAgent] at hs
        cases hpc : s.pc a <;> simp only [hpc] at hs
        case enter =>
          cases hs
          intro _
          cases a with
          | none => exact (hi.cbPar (by simp [hpc])).1
          | some i => exact absurd hpc (hi.chPc i).2
        all_goals (repeat' split at hs) <;> cases hs <;> simp_all
  cases hl : s.late with
  | false => rfl
  | true => simp [key s h hl] at hp

/-- Nothing can move any more and every child has completed. -/
def Quiescent (c : Cfg) (s : St) : Prop :=
  step c s .start = none ∧ (∀ a, step c s (.step a) = none) ∧ ∀ i < c.n, ∃ o, s.outcome i = some o

/-- C16: once every child has completed and nothing is in progress, the receiver has been completed (exactly
once, unless the stop callback started late). -/
theorem C16_completes_partial {c : Cfg} (hn : 1 ≤ c.n) {s : St} (h : Reachable c s) (hq : Quiescent c s) :
    1 ≤ s.results.length ∧ (s.late = false → s.results.length = 1) := by
  have hi := inv_reach hn h
  have hle := (C16_at_most_once_partial hn h).1
  have hnone : s.pc none = .off ∨ s.pc none = .done := by
    have h1 := hq.2.1 none
    have h2 := hi.cbPc
    simp only [step, stepAgent] at h1
    cases hp : s.pc none <;> simp_all [Pc.cbOk]
    all_goals (split at h1 <;> simp at h1)
  have hch : ∀ i < c.n, s.pc (some i) = .done := by
    intro i hlt
    have h1 := hq.2.1 (some i)
    obtain ⟨o, ho⟩ := hq.2.2 i hlt
    have h2 := hi.chPc i
    have h3 := (hi.out i)
    simp only [step, stepAgent] at h1
    cases hp : s.pc (some i) <;> rcases hnone with hn' | hn' <;> simp_all [Pc.running]
    all_goals (split at h1 <;> simp at h1)
  have hz : ∀ a ∈ agents c.n, (s.pc a).w = 0 ∧ (s.pc a).f = 0 := by
    intro a ha
    cases a with
    | none => rcases hnone with h1 | h1 <;> simp [h1, Pc.w, Pc.f]
    | some i => simp [hch i (mem_agents.1 ha i rfl), Pc.w, Pc.f]
  have hc := hi.cnt
  rw [lsum_eq_zero _ _ (fun a ha => (hz a ha).1)] at hc
  have h1 := hi.fin1 hc
  rw [lsum_eq_zero _ _ (fun a ha => (hz a ha).2)] at h1
  exact ⟨by omega, fun hl => by have := (hle hl).1; omega⟩

/-- Bound on the number of steps still to be made. -/
def Pc.rank : Pc → Nat
  | .wait => 10
  | .enter => 9
  | .setErr _ => 8
  | .casStop => 8
  | .reqStopErr _ => 7
  | .reqStop => 6
  | .saveErr _ => 6
  | .saveVals _ => 6
  | .arrive => 5
  | .reset => 4
  | .deliver => 3
  | .off | .done => 0

def Starter.rank (n : Nat) : Starter → Nat
  | .idle => n + 20
  | .inl => n + 2
  | .at k => n - k

def measure (c : Cfg) (s : St) : Nat :=
  s.starter.rank c.n + lsum Pc.rank s.pc (agents c.n) + if s.parentStopped then 0 else 20

theorem sumR {n : Nat} {pc : Option Nat → Pc} {a : Option Nat} (ha : a ∈ agents n) (p : Pc) :
    lsum Pc.rank (upd pc a p) (agents n) + (pc a).rank = lsum Pc.rank pc (agents n) + p.rank :=
  lsum_upd_in Pc.rank pc (agents_nodup n) ha

/-- C16: no execution goes on forever: each step lowers `measure`, so `Quiescent` states are reached. -/
theorem C16_terminates {c : Cfg} (hn : 1 ≤ c.n) {s s' : St} {a : Act} (h : Reachable c s)
    (hs : step c s a = some s') : measure c s' < measure c s := by
  have hi := inv_reach hn h
  cases a with
  | start =>
      have hR := fun ha => sumR (n := c.n) (pc := s.pc) (a := none) ha .enter
      have hm : none ∈ agents c.n := by simp [agents]
      have hR := hR hm
      simp only [step] at hs
      (repeat' split at hs) <;> cases hs <;> simp_all [measure, Starter.rank, Pc.rank] <;> omega
  | complete i o =>
      simp only [step] at hs
      (repeat' split at hs) <;> cases hs
      rename_i k hk hc
      have hR := sumR (n := c.n) (pc := s.pc) (a := some i) (by
        rw [mem_agents]; rintro j hj; cases hj; have := hi.startLe k hk; omega) o.pc
      cases o <;> simp_all [measure, Pc.rank, Outcome.pc] <;> omega
  | parentStop =>
      have hm : none ∈ agents c.n := by simp [agents]
      have hR := sumR (n := c.n) (pc := s.pc) (a := none) hm .enter
      simp only [step] at hs
      (repeat' split at hs) <;> cases hs <;> simp_all [measure, Pc.rank] <;> omega
  | step a =>
      have hne : s.pc a ≠ .wait := by
        intro hw; simp [step, stepAgent, hw] at hs
      have hR := fun p => sumR (n := c.n) (pc := s.pc) (hi.mem hne) p
      simp only [step, stepAgent] at hs
      cases hpc : s.pc a <;> simp only [hpc] at hs <;> simp only [hpc, Pc.rank] at hR
      case setErr e =>
        cases a with
        | none => cases hs
        | some i =>
          have h1 := hR (.reqStopErr e); have h2 := hR (.saveErr e); have h3 := hR .arrive
          cases hp : s.phase <;> simp only [hp] at hs <;> cases hs <;>
            simp only [measure, Pc.rank] at * <;> omega
      case reqStopErr e =>
        have h1 := hR (.saveErr e)
        cases hs; simp only [measure, Pc.rank] at *; omega
      all_goals
        (have h1 := hR .casStop; have h2 := hR .reqStop; have h3 := hR .arrive; have h4 := hR .reset
         have h5 := hR .deliver; have h6 := hR .done
         (repeat' split at hs) <;> cases hs <;> simp only [measure, Pc.rank] at * <;> omega)

/-- The race: two children complete with values; before the second one deregisters the stop callback, stop is
requested on the receiver's token. The receiver is completed twice, and the operation state (which the
receiver may have destroyed) is used after the first completion. -/
theorem C16_double_completion : ∃ s, Reachable ⟨2, true, true⟩ s ∧
    (s.results == [(.stopped, true), (.stopped, true)] && s.uaf) = true :=
  Reach.witness [.start, .start, .start, .complete 0 (.value [1]), .complete 1 (.value [2]),
    .step (some 0), .step (some 1), .step (some 0), .step (some 1),   -- the count is now zero
    .parentStop, .step none, .step none, .step none, .step none,      -- +1, CAS, request_stop, -1: zero again
    .step none, .step none,                                           -- first completion
    .step (some 1), .step (some 1)]                                   -- second completion
    (fun s : St => s.results == [(.stopped, true), (.stopped, true)] && s.uaf) (by decide)

/-- C17: if all children complete with values and stop was not requested on the receiver's token, the receiver
gets the children's values concatenated in child order, whatever the order in which they arrived. -/
theorem C17_values_in_order {c : Cfg} (hn : 1 ≤ c.n) {s : St} (h : Reachable c s) (vs : Nat → List Val)
    (hv : ∀ i < c.n, s.outcome i = some (.value (vs i))) (hp : s.parentStopped = false) :
    ∀ r ∈ s.results, r.1 = .value ((List.range c.n).map vs).flatten := by
  have hi := inv_reach hn h
  rintro ⟨r, b⟩ hr
  have hg := hi.good _ hr
  cases r with
  | value ws =>
      obtain ⟨f, h1, rfl⟩ := hg
      have : (List.range c.n).map f = (List.range c.n).map vs := by
        apply List.map_congr_left
        intro i hi
        have hi : i < c.n := by simpa using hi
        have := h1 i hi
        rw [hv i hi] at this
        simpa using this.symm
      rw [this]
  | error e =>
      obtain ⟨-, i, o, h1, h2, h3⟩ := hg
      have hlt : i < c.n := by
        by_contra hc
        have := (hi.out i).2 (hi.big i (by omega))
        simp [this] at h2
      rw [hv i hlt] at h2; cases h2; simp [Outcome.err?] at h3
  | stopped =>
      obtain ⟨-, -, h1 | ⟨i, h1, h2⟩⟩ := hg
      · simp [hp] at h1
      · rw [hv i h1] at h2; cases h2
  | garbage => exact hg.elim

/-- A nontrivial instance: the children arrive in the opposite order. -/
example : ∃ s, Reachable ⟨3, true, true⟩ s ∧ (s.results == [(.value [10, 11, 20, 30], false)]) = true :=
  Reach.witness [.start, .start, .start, .start, .complete 2 (.value [30]), .complete 1 (.value [20]),
    .step (some 2), .step (some 2), .complete 0 (.value [10, 11]), .step (some 1), .step (some 0), .step (some 1),
    .step (some 0), .step (some 0), .step (some 0)] _ (by decide)

/-- C18: whatever the schedule, a completion is an error iff some child reported one, and then it is the error of
the child whose report took effect first; it is stopped only if no child reported an error and a child or the
receiver's token was stopped; it is values only if every child completed with values; and whenever it is not
values, stop had been requested on the children before. -/
theorem C18_disposition {c : Cfg} (hn : 1 ≤ c.n) {s : St} (h : Reachable c s) {r : Res} {stopReq : Bool}
    (hr : (r, stopReq) ∈ s.results) :
    ((∃ e, r = .error e) ↔ ∃ i < c.n, ∃ o e, s.outcome i = some o ∧ o.err? = some e) ∧
    (∀ e, r = .error e → ∃ i o, s.errLog.head? = some i ∧ s.outcome i = some o ∧ o.err? = some e) ∧
    ((∀ i < c.n, ∀ o, s.outcome i = some o → o.err? = none) → (∃ i < c.n, s.outcome i = some .stopped) →
      r = .stopped) ∧
    (r = .stopped → s.parentStopped = true ∨ ∃ i < c.n, s.outcome i = some .stopped) ∧
    ((∃ vs, r = .value vs) → ∀ i < c.n, ∃ vs, s.outcome i = some (.value vs)) ∧
    ((∀ vs, r ≠ .value vs) → stopReq = true) := by
  have hi := inv_reach hn h
  have hg := hi.good _ hr
  have hlt : ∀ i o, s.outcome i = some o → i < c.n := by
    intro i o ho
    by_contra hc
    have := (hi.out i).2 (hi.big i (by omega))
    simp [this] at ho
  cases r with
  | value ws =>
      obtain ⟨f, h1, rfl⟩ := hg
      refine ⟨⟨by simp, ?_⟩, by simp, ?_, by simp, fun _ i hi => ⟨_, h1 i hi⟩, by simp⟩
      · rintro ⟨i, h2, o, e, h3, h4⟩; rw [h1 i h2] at h3; cases h3; simp [Outcome.err?] at h4
      · rintro - ⟨i, h2, h3⟩; rw [h1 i h2] at h3; cases h3
  | error e =>
      obtain ⟨hb, i, o, h1, h2, h3⟩ := hg
      refine ⟨⟨fun _ => ⟨i, hlt i o h2, o, e, h2, h3⟩, fun _ => ⟨e, rfl⟩⟩, ?_, ?_, by simp, by simp, fun _ => hb⟩
      · rintro e' he; cases he; exact ⟨i, o, h1, h2, h3⟩
      · intro h4; have := h4 i (hlt i o h2) o h2; simp [h3] at this
  | stopped =>
      obtain ⟨hb, h0, h1⟩ := hg
      refine ⟨⟨by simp, ?_⟩, by simp, by simp, fun _ => h1, by simp, fun _ => hb⟩
      rintro ⟨i, h2, o, e, h3, h4⟩
      obtain ⟨o', h5, h6⟩ := h0 i h2
      rw [h3] at h5; cases h5; simp [h4] at h6
  | garbage => exact hg.elim

/-- The error log is what it says: it lists exactly children that reported an error, each at most when it did. -/
theorem C18_log {c : Cfg} (hn : 1 ≤ c.n) {s : St} (h : Reachable c s) :
    ∀ i ∈ s.errLog, ∃ o e, s.outcome i = some o ∧ o.err? = some e := (inv_reach hn h).errIn

/-- An error after a stopped sibling and before another error: the first error wins. -/
example : ∃ s, Reachable ⟨3, true, true⟩ s ∧ (s.results == [(.error 7, true)] && s.errLog == [2, 0]) = true :=
  Reach.witness [.start, .start, .start, .start, .complete 0 (.error 5), .complete 1 .stopped,
    .complete 2 (.errorThrows 6 7), .step (some 1), .step (some 2), .step (some 0), .step (some 2), .step (some 1),
    .step (some 0), .step (some 1), .step (some 2), .step (some 2), .step (some 2)] _ (by decide)

/-- All children succeed but stop was requested on the receiver's token (and some child can be stopped): the
operation completes with stopped. -/
example : ∃ s, Reachable ⟨2, true, true⟩ s ∧ (s.results == [(.stopped, true)] && !s.late) = true :=
  Reach.witness [.start, .start, .start, .complete 0 (.value [1]), .complete 1 (.value [2]), .parentStop, .step none,
    .step none, .step (some 0), .step (some 1), .step (some 0), .step (some 1), .step none, .step none, .step none,
    .step none] _ (by decide)

end Verif.WhenAll
