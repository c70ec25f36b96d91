import Verif.WhenAny.Inv
/-!
# `exec::when_any`: property C19

Two ways in which the code differs from the property: the same race as in `when_all` (`late`, witness
`C19_double_completion`), and a stop request on the receiver's token replaces the first child's result by stopped
even when that child completed first (witness `C19_stop_beats_result`).
-/
namespace Verif.WhenAny

/-- C19 (what holds): unless the stop callback starts after the last arrival, the receiver is completed at most
once and the operation state is not used afterwards; in every case only after all children completed, or without
having started any of them because stop was requested before. Missing: the case `late`. -/
theorem C19_at_most_once_partial {n : Nat} (hn : 1 ≤ n) {s : St} (h : Reachable n s) :
    (s.late = false → s.results.length ≤ 1 ∧ s.uaf = false) ∧
    (s.results ≠ [] → (∀ i < n, ∃ o, s.outcome i = some o) ∨
      ((∀ i, s.outcome i = none) ∧ s.results = [(.stopped, true)] ∧ s.parentStopped = true)) := by
  have hi := inv_reach hn h
  refine ⟨fun hl => ⟨?_, hi.uaf hl⟩, fun hr => ?_⟩
  · by_cases hrf : s.starter = .refused
    · simp [(hi.ref hrf).1]
    · by_cases h0 : s.count = 0
      · have := hi.fin2 h0 hl; omega
      · have := hi.fin0 (by omega) hl hrf; omega
  · by_cases hrf : s.starter = .refused
    · refine .inr ⟨fun i => (hi.out i).2 (hi.fresh (by simp [hrf]) i), (hi.ref hrf).1, (hi.ref hrf).2.1⟩
    · refine .inl fun i hlt => ?_
      have hw := hi.finAll (by have := List.length_pos_iff.2 hr; omega) hrf i hlt
      cases ho : s.outcome i with
      | some o => exact ⟨o, rfl⟩
      | none => rw [(hi.out i).1 ho] at hw; simp [Pc.w] at hw

/-- C19: what the receiver gets. If stop is not requested on its token: the completion of the child whose report
came first (the exception, if storing it threw), and stop was requested on the other children before. Otherwise
that, or stopped. -/
theorem C19_first_wins_partial {n : Nat} (hn : 1 ≤ n) {s : St} (h : Reachable n s) {r : Res} {stopReq : Bool}
    (hr : (r, stopReq) ∈ s.results) :
    stopReq = true ∧
    (s.parentStopped = false → ∃ i o, s.claims.head? = some i ∧ s.outcome i = some o ∧ r = o.stored ∧ r ≠ .garbage) ∧
    (r ≠ .stopped → ∃ i o, s.claims.head? = some i ∧ s.outcome i = some o ∧ r = o.stored ∧ r ≠ .garbage) := by
  have hi := inv_reach hn h
  have key : ∀ i o, s.outcome i = some o → o.stored ≠ .garbage := by
    intro i o ho
    have := hi.ng i o ho
    simp only [Outcome.stored]; split <;> simp_all
  obtain ⟨h1, ⟨h2, h3⟩ | ⟨i, o, h2, h3, h4⟩⟩ := hi.good _ hr
  · simp only at h1 h2; subst h1 h2
    exact ⟨rfl, by simp [h3], by simp⟩
  · simp only at h1 h4
    exact ⟨h1, fun _ => ⟨i, o, h2, h3, h4, h4 ▸ key i o h3⟩, fun _ => ⟨i, o, h2, h3, h4, h4 ▸ key i o h3⟩⟩

/-- The stop callback never starts late if stop is never requested on the receiver's token. -/
theorem late_needs_stop {n : Nat} (hn : 1 ≤ n) {s : St} (h : Reachable n s) (hp : s.parentStopped = false) :
    s.late = false := by
  have key : ∀ s, Reachable n s → s.late = true → s.parentStopped = true := by
    intro s h
    induction h with
    | refl => simp [init]
    | @tail s s' a hr hs ih =>
      have hi := inv_reach hn hr
      cases a with
      | start => simp only [step] at hs; (repeat' split at hs) <;> cases hs <;> simp_all
      | complete i o => simp only [step] at hs; (repeat' split at hs) <;> cases hs <;> simp_all
      | parentStop => simp only [step] at hs; (repeat' split at hs) <;> cases hs <;> simp_all
      | step a =>
        simp only [step, stepAgent] at hs
        cases hpc : s.pc a <;> simp only [hpc] at hs
        case enter =>
          cases hs
          intro _
          cases a with
          | none => exact hi.cbPar (by simp [hpc])
          | some i => have := hi.chPc i; simp [hpc, Pc.chOk] at this
        all_goals (repeat' split at hs) <;> cases hs <;> simp_all
  cases hl : s.late with
  | false => rfl
  | true => simp [key s h hl] at hp

/-- Nothing can move any more; the children, if started, have all completed. -/
def Quiescent (n : Nat) (s : St) : Prop :=
  step n s .start = none ∧ (∀ a, step n s (.step a) = none) ∧
    (s.starter = .refused ∨ ∀ i < n, ∃ o, s.outcome i = some o)

/-- C19: once every child has completed and nothing is in progress, the receiver has been completed (exactly once,
unless the stop callback started late). -/
theorem C19_completes_partial {n : Nat} (hn : 1 ≤ n) {s : St} (h : Reachable n s) (hq : Quiescent n s) :
    1 ≤ s.results.length ∧ (s.late = false → s.results.length = 1) := by
  have hi := inv_reach hn h
  have hle := (C19_at_most_once_partial hn h).1
  rcases hq.2.2 with hrf | hall
  · simp [(hi.ref hrf).1]
  have hnone : s.pc none = .off ∨ s.pc none = .done := by
    have h1 := hq.2.1 none
    have h2 := hi.cbPc
    simp only [step, stepAgent] at h1
    cases hp : s.pc none <;> simp_all [Pc.cbOk]
    all_goals (split at h1 <;> simp at h1)
  have hch : ∀ i < n, s.pc (some i) = .done := by
    intro i hlt
    have h1 := hq.2.1 (some i)
    obtain ⟨o, ho⟩ := hall i hlt
    have h2 := hi.chPc i
    have h3 := (hi.out i)
    simp only [step, stepAgent] at h1
    cases hp : s.pc (some i) <;> rcases hnone with hn' | hn' <;> simp_all [Pc.running, Pc.chOk]
    all_goals (split at h1 <;> simp at h1)
  have hz : ∀ a ∈ agents n, (s.pc a).w = 0 ∧ (s.pc a).f = 0 := by
    intro a ha
    cases a with
    | none => rcases hnone with h1 | h1 <;> simp [h1, Pc.w, Pc.f]
    | some i => simp [hch i (mem_agents.1 ha i rfl), Pc.w, Pc.f]
  have hc := hi.cnt
  rw [lsum_eq_zero _ _ (fun a ha => (hz a ha).1)] at hc
  have h1 := hi.fin1 hc
  rw [lsum_eq_zero _ _ (fun a ha => (hz a ha).2)] at h1
  exact ⟨by omega, fun hl => by have := (hle hl).1; omega⟩

/-- Bound on the number of steps still to be made. -/
def Pc.rank : Pc → Nat
  | .wait => 10
  | .enter => 9
  | .cas _ => 8
  | .save _ => 7
  | .reqStop => 6
  | .arrive => 5
  | .reset => 4
  | .deliver => 3
  | .off | .done => 0

def Starter.rank (n : Nat) : Starter → Nat
  | .idle => n + 20
  | .inl => n + 3
  | .check => n + 1
  | .refused => 0
  | .at k => n - k

def measure (n : Nat) (s : St) : Nat :=
  s.starter.rank n + lsum Pc.rank s.pc (agents n) + if s.parentStopped then 0 else 20

theorem sumR {n : Nat} {pc : Option Nat → Pc} {a : Option Nat} (ha : a ∈ agents n) (p : Pc) :
    lsum Pc.rank (upd pc a p) (agents n) + (pc a).rank = lsum Pc.rank pc (agents n) + p.rank :=
  lsum_upd_in Pc.rank pc (agents_nodup n) ha

/-- C19: no execution goes on forever: each step lowers `measure`, so `Quiescent` states are reached. -/
theorem C19_terminates {n : Nat} (hn : 1 ≤ n) {s s' : St} {a : Act} (h : Reachable n s)
    (hs : step n s a = some s') : measure n s' < measure n s := by
  have hi := inv_reach hn h
  have hm : none ∈ agents n := by simp [agents]
  cases a with
  | start =>
      have hR := sumR (n := n) (pc := s.pc) (a := none) hm .enter
      simp only [step] at hs
      (repeat' split at hs) <;> cases hs <;> simp_all [measure, Starter.rank, Pc.rank] <;> omega
  | complete i o =>
      simp only [step] at hs
      (repeat' split at hs) <;> cases hs
      rename_i k hk hc
      have hR := sumR (n := n) (pc := s.pc) (a := some i) (by
        rw [mem_agents]; rintro j hj; cases hj; have := hi.startLe k hk; omega) (.cas o.stored)
      simp_all [measure, Pc.rank] <;> omega
  | parentStop =>
      have hR := sumR (n := n) (pc := s.pc) (a := none) hm .enter
      simp only [step] at hs
      (repeat' split at hs) <;> cases hs <;> simp_all [measure, Pc.rank] <;> omega
  | step a =>
      have hne : s.pc a ≠ .wait := by
        intro hw; simp [step, stepAgent, hw] at hs
      have hR := fun p => sumR (n := n) (pc := s.pc) (hi.mem hne) p
      simp only [step, stepAgent] at hs
      cases hpc : s.pc a <;> simp only [hpc] at hs <;> simp only [hpc, Pc.rank] at hR
      case cas r =>
        have h1 := hR (.save r); have h2 := hR .arrive
        cases a with
        | none => cases hs
        | some i => cases hp : s.emplaced <;> simp only [hp] at hs <;> cases hs <;> simp [measure] at * <;> omega
      all_goals
        (have h2 := hR .reqStop; have h3 := hR .arrive; have h4 := hR .reset
         have h5 := hR .deliver; have h6 := hR .done
         (repeat' split at hs) <;> cases hs <;> simp only [measure] at * <;> omega)

/-- The race of `when_all` is here too: stop is requested on the receiver's token after the last arrival and before
the callback is deregistered; the receiver is completed twice. -/
theorem C19_double_completion : ∃ s, Reachable 1 s ∧
    (s.results == [(.stopped, true), (.stopped, true)] && s.uaf) = true :=
  Reach.witness [.start, .start, .start, .complete 0 ⟨.value [1], none⟩, .step (some 0), .step (some 0),
    .step (some 0), .step (some 0),                        -- the count is now zero
    .parentStop, .step none, .step none, .step none,       -- +1, request_stop, -1: zero again
    .step none, .step none,                                -- first completion
    .step (some 0), .step (some 0)]                        -- second completion
    (fun s : St => s.results == [(.stopped, true), (.stopped, true)] && s.uaf) (by decide)

/-- A child completed first, with a value, and stop is requested on the receiver's token before the last child
arrives: the receiver gets stopped, not the value. -/
theorem C19_stop_beats_result : ∃ s, Reachable 2 s ∧
    (s.results == [(.stopped, true)] && s.claims == [0, 1] && s.outcome 0 == some ⟨.value [1], none⟩
      && !s.late) = true :=
  Reach.witness [.start, .start, .start, .start, .complete 0 ⟨.value [1], none⟩, .step (some 0), .step (some 0),
    .step (some 0), .step (some 0), .parentStop, .step none, .step none, .step none,
    .complete 1 ⟨.stopped, none⟩, .step (some 1), .step (some 1), .step (some 1), .step (some 1)]
    (fun s : St => s.results == [(.stopped, true)] && s.claims == [0, 1] && s.outcome 0 == some ⟨.value [1], none⟩
      && !s.late) (by decide)

/-- Without a stop request: the second child is first. -/
example : ∃ s, Reachable 2 s ∧ (s.results == [(.value [7], true)] && s.claims == [1, 0]) = true :=
  Reach.witness [.start, .start, .start, .start, .complete 0 ⟨.error 3, none⟩, .complete 1 ⟨.value [7], none⟩,
    .step (some 1), .step (some 0), .step (some 0), .step (some 1), .step (some 1), .step (some 1), .step (some 1),
    .step (some 1)] _ (by decide)

/-- Refused: stop was requested before `start()`. -/
example : ∃ s, Reachable 2 s ∧ (s.results == [(.stopped, true)] && s.starter == .refused) = true :=
  Reach.witness [.parentStop, .start, .step none, .step none, .step none, .start, .start] _ (by decide)

end Verif.WhenAny
