import Verif.NvWhenAll.Inv

namespace Verif.NvWhenAll

theorem invB_step {c : Cfg} {s s' : St} {a : Act} (h : InvB c s) (he : step c s a = some s') : InvB c s' := by
  cases a with
  | step i r => exact invB_child h he
  | complete i o inCb =>
    obtain ⟨h1, h2, h3, h4, h5, h6, h7, h8, h9, h10, h11, h12, h13, h14, h15⟩ := h
    simp only [step] at he
    (repeat' split at he) <;> first | (cases he; done) | skip
    rename_i k hk hc
    have hw := hc.2.1
    have hn := (h1 i).1 hw
    simp only [Option.some.injEq] at he
    subst he
    cases o <;> (constructor <;> simp only [Outcome.pc] <;> first
      | assumption
      | grind [upd_apply]
      | (intro hph
         rcases h15 hph with h | ⟨k, hk⟩
         · exact .inl h
         · refine .inr ⟨k, ?_⟩
           grind [upd_apply])
      | (intro hph
         obtain ⟨g1, j, g2⟩ := h13 hph
         refine ⟨g1, j, ?_⟩
         grind [upd_apply])
      | (intro hph
         obtain ⟨l, j, e, hj⟩ := h14 hph
         refine ⟨l, j, e, ?_⟩
         grind [upd_apply])
      | skip)
  | _ =>
    obtain ⟨h1, h2, h3, h4, h5, h6, h7, h8, h9, h10, h11, h12, h13, h14, h15⟩ := h
    simp only [step] at he
    (repeat' split at he) <;> first
      | (cases he; done)
      | (simp only [Option.some.injEq] at he
         subst he
         constructor <;> first | assumption | grind | skip)

/-- The GPU and the results of CUDA calls. -/
structure InvD (c : Cfg) (s : St) : Prop where
  co : s.phase = .started → ∀ i v, s.outcome i = some (.value (some v)) → (s.pc i).copied = true →
    s.statuses i ≠ none ∨ s.gpu i = .queued v ∨ s.gpu i = .ran ∨ s.gpu i = .failed
  rd : s.phase = .started → c.stream = true → ∀ i v, s.outcome i = some (.value v) → (s.pc i).recd = true →
    s.statuses i ≠ none ∨ s.recorded i = true
  gq : ∀ i v, s.gpu i = .queued v → s.outcome i = some (.value (some v)) ∧ (s.pc i).copied = true
  gr : ∀ i, s.gpu i = .ran → ∃ v, s.mem i = some v ∧ s.outcome i = some (.value (some v)) ∧ (s.pc i).copied = true
  gf : ∀ i, s.gpu i = .failed → (∃ v, s.outcome i = some (.value (some v))) ∧ (s.pc i).copied = true
  gs : c.stream = true → ∀ i v, s.gpu i = .queued v → (s.pc i).recd = true → s.statuses i ≠ none ∨ s.recorded i = true
  mm : ∀ i v, s.mem i = some v → s.gpu i = .ran
  sts : ∀ i e, s.statuses i = some e → e ∈ s.cudaErrs
  st : ∀ e, s.status = some e → e ∈ s.cudaErrs
  sy : ∀ i k, s.pc i = .sync k → s.status = none → k ≤ c.n ∧ (∀ j, j < c.n → s.statuses j = none) ∧
    ∀ j, j < k → (c.stream = true → s.recorded j = true) → (s.gpu j).busy = false
  dl : ∀ i, s.pc i = .deliver → s.status = none → (∀ j, j < c.n → s.statuses j = none) ∧
    ∀ j, j < c.n → (c.stream = true → s.recorded j = true) → (s.gpu j).busy = false

theorem invD_init (c : Cfg) : InvD c (init c) := by
  constructor <;> simp [init]

theorem firstBad_none {s : St} : ∀ {n : Nat}, firstBad s n = none → ∀ j, j < n → s.statuses j = none
  | 0, _, _, h => by omega
  | n + 1, hf, j, h => by
    simp only [firstBad] at hf
    split at hf
    · cases hf
    · rename_i h1
      by_cases hj : j = n
      · subst hj; exact hf
      · exact firstBad_none h1 j (by omega)

theorem firstBad_some {s : St} : ∀ {n : Nat} {e : Nat}, firstBad s n = some e → ∃ j, s.statuses j = some e
  | 0, _, h => by cases h
  | n + 1, e, hf => by
    simp only [firstBad] at hf
    split at hf
    · rename_i h1
      cases hf
      exact firstBad_some h1
    · exact ⟨n, hf⟩

/-- Everybody has arrived when somebody completes the operation. -/
theorem all_past {c : Cfg} {s : St} (h : InvA c s) {i : Nat} (hi : (s.pc i).last = true) (j : Nat) (hj : j < c.n) :
    (s.pc j).past = true := past_zero h (h.zero i hi) j hj

set_option maxHeartbeats 8000000 in
theorem invD_child {c : Cfg} {s s' : St} {i : Nat} {r : Option Nat} (ha : InvA c s) (hb : InvB c s) (h : InvD c s)
    (he : stepChild c s i r = some s') : InvD c s' := by
  have hfn := @firstBad_none { s with uaf := s.uaf || !s.results.isEmpty } c.n
  have hfs := @firstBad_some { s with uaf := s.uaf || !s.results.isEmpty } c.n
  have hal : ∀ k, (s.pc k).last = true → ∀ j, j < c.n → (s.pc j).past = true := fun k hk => all_past ha hk
  have hun := ha.uniq
  have hin : s.pc i ≠ .wait → i < c.n := by
    intro hw
    apply Classical.byContradiction
    intro hn
    exact hw (ha.out i (by omega))
  have b3 := hb.cp
  have b2 := hb.ld
  have b4 := hb.rc
  have b5 := hb.se
  have b8 := hb.ca
  have b6 := hb.re
  have b7 := hb.sv
  have b9 := hb.rq
  clear ha hb
  obtain ⟨h1, h2, h3, h4, h5, h0, h6, h7, h8, h9, h10⟩ := h
  simp only [stepChild] at he
  simp only [] at hfn hfs
  cases hp : s.pc i <;> simp only [hp] at he <;> (repeat' split at he) <;>
    first
    | (simp at he; done)
    | (simp only [Option.some.injEq] at he
       subst he
       try simp only [note] at *
       constructor <;> first
         | assumption
         | grind [upd_apply, Pc.past, Pc.last, Pc.copied, Pc.recd, Gpu.busy, Option.toList]
         | (intro j k' hj hst
            by_cases hji : j = i
            · subst hji
              obtain ⟨g1, g2, g3⟩ := h9 _ _ hp hst
              simp only [upd_same, Pc.sync.injEq] at hj
              subst hj
              refine ⟨by omega, g2, fun m hm hr => ?_⟩
              grind
            · grind [upd_apply, Pc.last])
         | skip)

theorem invD_step {c : Cfg} {s s' : St} {a : Act} (ha : InvA c s) (hb : InvB c s) (h : InvD c s)
    (he : step c s a = some s') : InvD c s' := by
  cases a with
  | step i r => exact invD_child ha hb h he
  | complete i o inCb =>
    obtain ⟨h1, h2, h3, h4, h5, h0, h6, h7, h8, h9, h10⟩ := h
    have hal : ∀ k, (s.pc k).last = true → ∀ j, j < c.n → (s.pc j).past = true := fun k hk => all_past ha hk
    have ho := hb.oc
    simp only [step] at he
    (repeat' split at he) <;> first | (cases he; done) | skip
    simp only [Option.some.injEq] at he
    subst he
    cases o <;> (constructor <;> simp only [Outcome.pc] <;> first
      | assumption
      | grind [upd_apply, Pc.past, Pc.last, Pc.copied, Pc.recd]
      | skip)
  | gpu i ok =>
    obtain ⟨h1, h2, h3, h4, h5, h0, h6, h7, h8, h9, h10⟩ := h
    simp only [step] at he
    (repeat' split at he) <;> first
      | (cases he; done)
      | (simp only [Option.some.injEq] at he
         subst he
         constructor <;> first | assumption | grind [upd_apply, Gpu.busy] | skip)
  | _ =>
    obtain ⟨h1, h2, h3, h4, h5, h0, h6, h7, h8, h9, h10⟩ := h
    simp only [step] at he
    (repeat' split at he) <;> first
      | (cases he; done)
      | (simp only [Option.some.injEq] at he
         subst he
         constructor <;> first | assumption | grind | skip)

/-- Somebody completes the operation. -/
def Zero (c : Cfg) (s : St) : Prop := s.count = 0 → 0 < c.n → (∃ i, (s.pc i).last = true) ∨ s.results ≠ []

theorem zero_step {c : Cfg} {s s' : St} {a : Act} (ha : InvA c s) (h : Zero c s)
    (he : step c s a = some s') : Zero c s' := by
  intro h0 hn
  cases a with
  | step i r =>
    have hin : s.pc i ≠ .wait → i < c.n := by
      intro hw
      apply Classical.byContradiction
      intro hn
      exact hw (ha.out i (by omega))
    have hpz : s.count = 0 → i < c.n → (s.pc i).past = true := fun h0 hi => past_zero ha h0 i hi
    have hu := ha.uniq
    simp only [Zero] at h
    simp only [step, stepChild] at he
    cases hp : s.pc i <;> simp only [hp] at he <;> (repeat' split at he) <;>
      first
      | (simp at he; done)
      | (simp only [Option.some.injEq] at he
         subst he
         try simp only [note] at *
         first
         | (refine .inr ?_; grind; done)
         | (refine .inl ⟨i, ?_⟩; grind [upd_apply, Pc.last, Pc.past]; done)
         | (exfalso; grind [Pc.past, Pc.last]; done)
         | skip)
  | complete i o inCb =>
    simp only [step] at he
    (repeat' split at he) <;> first | (cases he; done) | skip
    rename_i k hk hc
    simp only [Option.some.injEq] at he
    subst he
    rcases h h0 hn with ⟨j, hj⟩ | h1
    · refine .inl ⟨j, ?_⟩
      simp only
      have : j ≠ i := by rintro rfl; rw [hc.2.1] at hj; cases hj
      simpa [upd_apply, this] using hj
    · exact .inr h1
  | _ =>
    simp only [Zero] at h
    simp only [step] at he
    (repeat' split at he) <;> first
      | (cases he; done)
      | (simp only [Option.some.injEq] at he
         subst he
         first | exact h h0 hn | (refine .inr ?_; simp; done))

structure Inv (c : Cfg) (s : St) : Prop where
  a : InvA c s
  b : InvB c s
  d : InvD c s
  z : Zero c s

theorem inv_step {c : Cfg} {s s' : St} {a : Act} (h : Inv c s) (he : step c s a = some s') : Inv c s' :=
  ⟨invA_step h.a he, invB_step h.b he, invD_step h.a h.b h.d he, zero_step h.a h.z he⟩

theorem reach_inv {c : Cfg} {s : St} (h : Reachable c s) : Inv c s :=
  Reach.inv (Inv c) ⟨invA_init c, invB_init c, invD_init c, by intro h0 hn; simp only [init] at h0; omega⟩
    (fun _ _ _ hi he => inv_step hi he) s h

end Verif.NvWhenAll
