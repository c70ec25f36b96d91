import Verif.NvSplit.Inv

/-! # nvexec `split` — invariants of the results (C84) -/
namespace Verif.NvSplit

/-- What the operations are to be completed with: the result of the child, or stopped if it was not started. -/
def final (s : St) (o : Outcome) : Prop := s.outcome = some o ∨ (s.skipped = true ∧ o = .stopped)

structure InvB (c : Cfg) (s : St) : Prop where
  note : ∀ e, s.status = some e → e ∈ s.cudaErrs
  ctor : c.ctor.err ≠ none → s.cudaErrs ≠ []
  queued : ∀ o, s.gpu = .queued o → s.outcome = some o
  pcres : ∀ o, s.ntf = .result o → s.outcome = some o
  idx0 : s.outcome = none → s.idx = 2
  idx1 : ∀ o, s.outcome = some o → s.ntf = .result o ∨ s.idx = o.alt
  mem : ∀ o, s.mem = some o → s.outcome = some o ∨ o = .stopped
  nomem : s.mem = none → c.ctor.err ≠ none
  ran : ∀ o, s.gpu = .ran → s.mem = some o → s.outcome = some o
  failed : s.gpu = .failed → s.gpuFailed = true
  gnone : s.outcome = none → s.gpu = .none ∧ (∀ o, s.mem = some o → o = .stopped)
  host : c.stream = false → (s.ntf = .xchg ∨ s.ntf.past = true) → ∀ o, s.mem = some o → final s o
  rec0 : s.ntf = .record → c.stream = true ∧ s.gpu ≠ .none
  rec1 : c.stream = true → s.status = none → (s.ntf = .xchg ∨ s.ntf.past = true) → s.skipped = false →
    s.recorded = true ∧ s.gpu ≠ .none
  gs : c.stream = false → s.gpu = .none
  fin : s.head = none → s.outcome ≠ none ∨ s.skipped = true
  nself : ∀ k r, s.ntf = .deliver k r → s.status = none → s.gpu.busy = false ∨ s.skipped = true
  oself : ∀ i, s.op i = .deliver → s.status = none → s.gpu.busy = false ∨ s.skipped = true
  null : s.nullWrite = true → ∃ e, c.ctor = .noMem e
  nomem' : s.mem = none → ∃ e, c.ctor = .noMem e

theorem invB_init (c : Cfg) : InvB c (init c) := by
  constructor <;> simp [init, Ntf.past] <;> cases hc : c.ctor <;> simp [Ctor.err]

theorem alt_inj_stopped {o : Outcome} (h : o.alt = 2) : o = .stopped := by cases o <;> simp_all [Outcome.alt]

set_option maxHeartbeats 8000000 in
theorem invB_step (c : Cfg) (s : St) (a : Act) (s' : St) (hA : InvA c s) (h : InvB c s) (he : step c s a = some s') :
    InvB c s' := by
  have hidle := hA.idle
  have hexcl := hA.excl
  have hoc := hA.oc
  have hnp := hA.nopast
  have hself := hA.self
  have hfirst := hA.first
  clear hA
  obtain ⟨note, ctor, queued, pcres, idx0, idx1, mem, nomem, ran, failed, gnone, host, rec0, rec1, gs, fin, nself, oself, null, nomem'⟩ := h
  cases a <;> simp only [step, stepNtf, stepOp, St.release] at he <;> (repeat' split at he) <;>
    first
    | (simp at he; done)
    | (simp only [Option.some.injEq] at he; subst he
       try simp only [St.touch, St.touchOp, St.note]
       constructor <;> (try dsimp only) <;>
        first
        | assumption
        | grind [Ntf.past, Gpu.busy, upd_apply, Op.self, final]
        | (cases hm : s.mem <;> simp only [Option.map] <;>
           grind [Ntf.past, Gpu.busy, upd_apply, Op.self, final, Option.isNone_iff_eq_none])
        | (intro hx
           cases hm : s.mem with
           | none => exact nomem' hm
           | some o => refine null ?_; simpa [hm] using hx)
        | (cases hg : s.gpu <;> grind [Ntf.past, Gpu.busy, upd_apply, Op.self, final])
        | skip)

theorem answer_result {s : St} {l : Option Nat} {o : Outcome} (h : s.answer l = .result o) :
    l = none ∧ s.mem = some o ∧ o.alt = s.idx := by
  unfold St.answer at h; cases l <;> simp at h; cases hm : s.mem <;> simp_all
  split at h <;> simp_all

theorem answer_cuda {s : St} {l : Option Nat} {e : Nat} (h : s.answer l = .cuda e) : l = some e := by
  unfold St.answer at h; cases l <;> simp at h
  · cases hm : s.mem <;> simp_all; split at h <;> simp_all
  · simp [h]

theorem answer_garbage {s : St} {l : Option Nat} (h : s.answer l = .garbage) :
    l = none ∧ ∀ o, s.mem = some o → o.alt ≠ s.idx := by
  unfold St.answer at h; cases l <;> simp at h; cases hm : s.mem <;> simp_all

/-- What is visited once the list was exchanged is the final result. -/
theorem final_of {c : Cfg} {s : St} (hA : InvA c s) (hB : InvB c s) (hh : s.head = none) {o : Outcome}
    (hm : s.mem = some o) (hi : o.alt = s.idx) : final s o := by
  have h0 := hA.nopast.1 hh
  have h1 : ∀ o', s.ntf ≠ .result o' := by intro o' h1; rw [h1] at h0; cases h0
  cases ho : s.outcome with
  | none =>
    rcases hB.fin hh with h2 | h2
    · exact absurd ho h2
    · exact .inr ⟨h2, (hB.gnone ho).2 o hm⟩
  | some o' =>
    rcases hB.mem o hm with h2 | h2
    · exact .inl h2
    · subst h2
      rcases hB.idx1 o' ho with h3 | h3
      · exact absurd h3 (h1 o')
      · left
        have : o' = .stopped := alt_inj_stopped (by rw [← h3, ← hi]; rfl)
        rw [ho, this]

/-- Once the kernel has been executed (if there is one), the right alternative is visited. -/
theorem garbage_of {c : Cfg} {s : St} (hA : InvA c s) (hB : InvB c s) (hh : s.head = none) (hs : s.status = none)
    (hg : s.gpu.busy = false ∨ s.skipped = true) (hm : ∀ o, s.mem = some o → o.alt ≠ s.idx) :
    s.gpuFailed = true ∨ s.cudaErrs ≠ [] := by
  have h0 := hA.nopast.1 hh
  have h1 : ∀ o', s.ntf ≠ .result o' := by intro o' h1; rw [h1] at h0; cases h0
  cases hmm : s.mem with
  | none => exact .inr (hB.ctor (hB.nomem hmm))
  | some o =>
    have hne := hm o hmm
    cases ho : s.outcome with
    | none =>
      have h3 := (hB.gnone ho).2 o hmm
      have h4 := hB.idx0 ho
      subst h3; exact absurd h4.symm hne
    | some o' =>
      have h5 : s.idx = o'.alt := (hB.idx1 o' ho).resolve_left (h1 o')
      have hsk : s.skipped = false := by
        have h6 := hA.oc (by simp [ho]); have h7 := hA.excl
        cases hx : s.skipped <;> simp_all
      have hne' : o ≠ o' := by intro h6; subst h6; exact hne h5.symm
      cases hst : c.stream with
      | false =>
        rcases hB.host hst (.inr h0) o hmm with h6 | h6
        · rw [ho] at h6; exact absurd (Option.some.inj h6).symm hne'
        · rw [hsk] at h6; simp at h6
      | true =>
        have h6 := hB.rec1 hst hs (.inr h0) hsk
        cases hgg : s.gpu with
        | none => exact absurd hgg h6.2
        | queued x => rw [hgg, hsk] at hg; simp [Gpu.busy] at hg
        | ran =>
          have := hB.ran o hgg hmm
          rw [ho] at this; exact absurd (Option.some.inj this).symm hne'
        | failed => exact .inl (hB.failed hgg)

structure InvE (s : St) : Prop where
  res : ∀ i o, Res.result o ∈ s.results i → final s o
  cuda : ∀ i e, Res.cuda e ∈ s.results i → e ∈ s.cudaErrs
  garb : ∀ i, Res.garbage ∈ s.results i → s.gpuFailed = true ∨ s.cudaErrs ≠ []

set_option maxHeartbeats 8000000 in
theorem invE_step (c : Cfg) (s : St) (a : Act) (s' : St) (hA : InvA c s) (hB : InvB c s) (h : InvE s)
    (he : step c s a = some s') : InvE s' := by
  have hfin := @final_of c s hA hB
  have hgar := garbage_of hA hB
  have hself := hA.self
  have hnp := hA.nopast
  have hfirst := hA.first
  have hns := hB.nself
  have hos := hB.oself
  have hnote := hB.note
  have hoc := hA.oc
  clear hA hB
  obtain ⟨res, cuda, garb⟩ := h
  cases a <;> simp only [step, stepNtf, stepOp, St.release] at he <;> (repeat' split at he) <;>
    first
    | (simp at he; done)
    | (simp only [Option.some.injEq] at he; subst he
       try simp only [St.touch, St.touchOp, St.note]
       constructor <;> (try dsimp only) <;>
        first
        | assumption
        | grind [Ntf.past, upd_apply, Op.self, final, answer_result, answer_cuda, answer_garbage]
        | skip)

theorem invABE {c : Cfg} {s : St} (h : Reachable c s) : InvA c s ∧ InvB c s ∧ InvE s :=
  Reach.inv (fun s => InvA c s ∧ InvB c s ∧ InvE s) ⟨invA_init c, invB_init c, by constructor <;> simp [init]⟩
    (fun s a s' hi he => ⟨invA_step c s a s' hi.1 he, invB_step c s a s' hi.1 hi.2.1 he,
      invE_step c s a s' hi.1 hi.2.1 hi.2.2 he⟩) s h

end Verif.NvSplit
