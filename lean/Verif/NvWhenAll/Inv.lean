import Verif.NvWhenAll.Model

namespace Verif.NvWhenAll

/-- The child has arrived. -/
@[grind] def Pc.past : Pc → Bool
  | .reset | .look | .sync _ | .deliver | .done => true
  | _ => false

/-- The child is the last one and completes the operation. -/
@[grind] def Pc.last : Pc → Bool
  | .reset | .look | .sync _ | .deliver => true
  | _ => false

/-- ... and has destroyed the stop callback. -/
@[grind] def Pc.closed : Pc → Bool
  | .look | .sync _ | .deliver => true
  | _ => false

/-- The child has launched its copy, if at all. -/
@[grind] def Pc.copied : Pc → Bool
  | .record | .arrive => true
  | p => p.past

/-- The child has recorded its event, if at all. -/
@[grind] def Pc.recd : Pc → Bool
  | .arrive => true
  | p => p.past

/-- Counting, and who completes. -/
structure InvA (c : Cfg) (s : St) : Prop where
  cnt : s.count + cnt (fun i => (s.pc i).past) c.n = c.n
  out : ∀ i, c.n ≤ i → s.pc i = .wait
  uniq : ∀ i j, (s.pc i).last = true → (s.pc j).last = true → i = j
  zero : ∀ i, (s.pc i).last = true → s.count = 0
  stk : ∀ k, s.starter = .at k → k ≤ c.n ∧ ∀ i, k ≤ i → s.pc i = .wait
  stn : (∀ k, s.starter ≠ .at k) → ∀ i, s.pc i = .wait
  res : s.results ≠ [] → s.results.length = 1 ∧
    ((s.starter = .done ∧ (∀ i, s.pc i = .wait)) ∨ (s.starter = .at c.n ∧ s.count = 0 ∧ ∀ i, (s.pc i).last = false))
  dn : s.starter = .done → s.results ≠ []
  idl : s.starter = .idle → s.cb = .off ∧ s.reg = false
  inl : s.starter = .inl → s.reg = false
  reg : s.reg = true → s.cb = .off
  cls : ∀ i, (s.pc i).closed = true → s.reg = false ∧ (s.cb = .enter ∨ s.cb = .inside → s.nested i = true)
  fin : s.results ≠ [] → s.starter ≠ .done → s.reg = false ∧ (s.cb = .enter ∨ s.cb = .inside → ∃ i, s.nested i = true)
  nst : ∀ i, s.pc i = .wait → s.nested i = false
  uaf : s.uaf = true → ∃ i, s.nested i = true

theorem invA_init (c : Cfg) : InvA c (init c) := by
  constructor <;> simp [init, Pc.past, Pc.last, Pc.closed]
  exact cnt_zero_iff.2 (fun _ _ => rfl)

theorem past_zero {c : Cfg} {s : St} (h : InvA c s) (h0 : s.count = 0) (i : Nat) (hi : i < c.n) :
    (s.pc i).past = true := by
  have := h.cnt
  rw [h0, Nat.zero_add] at this
  exact (cnt_eq_iff.1 this) i hi

/-- The starter has started all children when the count is zero. -/
theorem started_all {c : Cfg} {s : St} (h : InvA c s) {i : Nat} (hi : s.pc i ≠ .wait) (h0 : s.count = 0) :
    s.starter = .at c.n := by
  have h1 : ∃ k, s.starter = .at k := by
    apply Classical.byContradiction
    intro hn
    exact hi (h.stn (fun k hk => hn ⟨k, hk⟩) i)
  obtain ⟨k, hk⟩ := h1
  obtain ⟨h2, h3⟩ := h.stk k hk
  by_cases hkn : k = c.n
  · rw [hk, hkn]
  · have := past_zero h h0 k (by omega)
    rw [h3 k (Nat.le_refl _)] at this
    cases this

/-- A child that has not arrived keeps the result away, and no result was delivered. -/
theorem no_res {c : Cfg} {s : St} (h : InvA c s) {i : Nat} (hw : s.pc i ≠ .wait) (hd : s.pc i ≠ .done) :
    s.results = [] := by
  apply Classical.byContradiction
  intro hr
  obtain ⟨_, ⟨_, h1⟩ | ⟨_, h1, h2⟩⟩ := h.res hr
  · exact hw (h1 i)
  · have hin : i < c.n := by
      apply Classical.byContradiction
      intro hn
      exact hw (h.out i (by omega))
    have h3 := past_zero h h1 i hin
    have h4 := h2 i
    cases hp : s.pc i <;> simp_all [Pc.past, Pc.last]

theorem cnt_upd_same {f : Nat → Pc} {n i : Nat} {p : Pc} (h : p.past = (f i).past) :
    cnt (fun j => (upd f i p j).past) n = cnt (fun j => (f j).past) n := by
  apply cnt_congr
  intro j _
  simp only [upd_apply]
  split
  · subst_vars; exact h
  · rfl

theorem cnt_upd_arrive {f : Nat → Pc} {n i : Nat} {p : Pc} (hi : i < n) (h : p.past = true) (h0 : (f i).past = false) :
    cnt (fun j => (upd f i p j).past) n = cnt (fun j => (f j).past) n + 1 := by
  apply cnt_flip hi h0
  · simpa using h
  · intro j hj; simp [upd_apply, hj]

set_option maxHeartbeats 4000000 in
theorem invA_child {c : Cfg} {s s' : St} {i : Nat} {r : Option Nat} (h : InvA c s)
    (he : stepChild c s i r = some s') : InvA c s' := by
  have hpw : s.pc i ≠ .wait ∧ s.pc i ≠ .done := by
    constructor <;> intro hp <;> simp [stepChild, hp] at he
  have hr := no_res h hpw.1 hpw.2
  have hin : i < c.n := by
    apply Classical.byContradiction
    intro hn
    exact hpw.1 (h.out i (by omega))
  have hall : s.count = 0 → s.starter = .at c.n := started_all h hpw.1
  have hpz : s.count = 0 → (s.pc i).past = true := fun h0 => past_zero h h0 i hin
  have hpos : (s.pc i).past = false → 1 ≤ s.count := by
    intro hp
    apply Classical.byContradiction
    intro h0
    have := hpz (by omega)
    rw [hp] at this; cases this
  obtain ⟨h1, h2, h3, h4, h5, h6, h7, h8, h9, h10, h11, h12, h13, h14, h15⟩ := h
  have c1 : ∀ p : Pc, p.past = (s.pc i).past → cnt (fun j => (upd s.pc i p j).past) c.n = cnt (fun j => (s.pc j).past) c.n :=
    fun p hp => cnt_upd_same hp
  have c2 : ∀ p : Pc, p.past = true → (s.pc i).past = false →
      cnt (fun j => (upd s.pc i p j).past) c.n = cnt (fun j => (s.pc j).past) c.n + 1 :=
    fun p hp h0 => cnt_upd_arrive hin hp h0

  simp only [stepChild, hr, List.isEmpty_nil, Bool.not_true, Bool.or_false] at he

  cases hp : s.pc i <;> simp only [hp] at he hpw hpz hpos c1 c2 <;> (repeat' split at he) <;>
    first
    | (simp at he; done)
    | (simp only [Option.some.injEq] at he
       subst he
       try simp only [note] at *
       constructor <;> first
         | assumption
         | (intro; contradiction)
         | grind [upd_apply, Pc.past, Pc.last, Pc.closed]
         | skip)

theorem outcome_pc (o : Outcome) : o.pc.past = false ∧ o.pc.last = false ∧ o.pc.closed = false ∧ o.pc ≠ .wait ∧
    o.pc ≠ .done := by
  cases o <;> simp [Outcome.pc, Pc.past, Pc.last, Pc.closed]

theorem invA_step {c : Cfg} {s s' : St} {a : Act} (h : InvA c s) (he : step c s a = some s') : InvA c s' := by
  have hst : ∀ k, s.starter = .at k → s.results ≠ [] → k = c.n := by
    intro k hk hr
    obtain ⟨_, ⟨h1, _⟩ | ⟨h1, _⟩⟩ := h.res hr
    · rw [hk] at h1; cases h1
    · rw [hk] at h1; simpa using h1
  cases a with
  | step i r => exact invA_child h he
  | start =>
    obtain ⟨h1, h2, h3, h4, h5, h6, h7, h8, h9, h10, h11, h12, h13, h14, h15⟩ := h
    simp only [step] at he
    (repeat' split at he) <;> first
      | (cases he; done)
      | (simp only [Option.some.injEq] at he
         subst he
         constructor <;> first
           | assumption
           | grind [Pc.past, Pc.last, Pc.closed]
           | (intro hu
              simp only [Bool.or_eq_true, Bool.and_eq_true, Bool.not_eq_true', List.isEmpty_eq_false_iff, decide_eq_true_eq, ne_eq] at hu
              grind)
           | (rename_i k0 hk0 hlt
              obtain ⟨_, g2⟩ := h5 _ hk0
              intro k hk
              simp only [Starter.at.injEq] at hk
              subst hk
              exact ⟨by omega, fun i hi => g2 i (by omega)⟩)
           | (intro hu
              obtain ⟨j, hj⟩ := h15 hu
              refine ⟨j, ?_⟩
              have : j ≠ i := by grind
              grind [upd_apply])
           | skip)
  | cb =>
    obtain ⟨h1, h2, h3, h4, h5, h6, h7, h8, h9, h10, h11, h12, h13, h14, h15⟩ := h
    simp only [step] at he
    (repeat' split at he) <;> first
      | (cases he; done)
      | (simp only [Option.some.injEq] at he
         subst he
         constructor <;> first
           | assumption
           | grind [Pc.past, Pc.last, Pc.closed]
           | (intro hu
              simp only [Bool.or_eq_true, Bool.and_eq_true, Bool.not_eq_true', List.isEmpty_eq_false_iff, decide_eq_true_eq, ne_eq] at hu
              grind)
           | (rename_i k0 hk0 hlt
              obtain ⟨_, g2⟩ := h5 _ hk0
              intro k hk
              simp only [Starter.at.injEq] at hk
              subst hk
              exact ⟨by omega, fun i hi => g2 i (by omega)⟩)
           | (intro hu
              obtain ⟨j, hj⟩ := h15 hu
              refine ⟨j, ?_⟩
              have : j ≠ i := by grind
              grind [upd_apply])
           | skip)
  | parentStop =>
    obtain ⟨h1, h2, h3, h4, h5, h6, h7, h8, h9, h10, h11, h12, h13, h14, h15⟩ := h
    simp only [step] at he
    (repeat' split at he) <;> first
      | (cases he; done)
      | (simp only [Option.some.injEq] at he
         subst he
         constructor <;> first
           | assumption
           | grind [Pc.past, Pc.last, Pc.closed]
           | (intro hu
              simp only [Bool.or_eq_true, Bool.and_eq_true, Bool.not_eq_true', List.isEmpty_eq_false_iff, decide_eq_true_eq, ne_eq] at hu
              grind)
           | (rename_i k0 hk0 hlt
              obtain ⟨_, g2⟩ := h5 _ hk0
              intro k hk
              simp only [Starter.at.injEq] at hk
              subst hk
              exact ⟨by omega, fun i hi => g2 i (by omega)⟩)
           | (intro hu
              obtain ⟨j, hj⟩ := h15 hu
              refine ⟨j, ?_⟩
              have : j ≠ i := by grind
              grind [upd_apply])
           | skip)
  | gpu i ok =>
    obtain ⟨h1, h2, h3, h4, h5, h6, h7, h8, h9, h10, h11, h12, h13, h14, h15⟩ := h
    simp only [step] at he
    (repeat' split at he) <;> first
      | (cases he; done)
      | (simp only [Option.some.injEq] at he
         subst he
         constructor <;> first
           | assumption
           | grind [Pc.past, Pc.last, Pc.closed]
           | (intro hu
              simp only [Bool.or_eq_true, Bool.and_eq_true, Bool.not_eq_true', List.isEmpty_eq_false_iff, decide_eq_true_eq, ne_eq] at hu
              grind)
           | (rename_i k0 hk0 hlt
              obtain ⟨_, g2⟩ := h5 _ hk0
              intro k hk
              simp only [Starter.at.injEq] at hk
              subst hk
              exact ⟨by omega, fun i hi => g2 i (by omega)⟩)
           | (intro hu
              obtain ⟨j, hj⟩ := h15 hu
              refine ⟨j, ?_⟩
              have : j ≠ i := by grind
              grind [upd_apply])
           | skip)
  | complete i o inCb =>
    have ho := outcome_pc o
    simp only [step] at he
    (repeat' split at he) <;> first | (cases he; done) | skip
    rename_i k hk hc
    have hr : s.results = [] := by
      apply Classical.byContradiction
      intro hr
      have hkn := hst k hk hr
      obtain ⟨_, ⟨h1, _⟩ | ⟨_, h1, _⟩⟩ := h.res hr
      · rw [hk] at h1; cases h1
      · have := past_zero h h1 i (by omega)
        rw [hc.2.1] at this; cases this
    obtain ⟨h1, h2, h3, h4, h5, h6, h7, h8, h9, h10, h11, h12, h13, h14, h15⟩ := h
    have c1 : cnt (fun j => (upd s.pc i o.pc j).past) c.n = cnt (fun j => (s.pc j).past) c.n :=
      cnt_upd_same (by rw [hc.2.1, ho.1]; rfl)
    simp only [Option.some.injEq] at he
    subst he
    constructor <;> first
           | assumption
           | grind [Pc.past, Pc.last, Pc.closed]
           | (intro hu
              simp only [Bool.or_eq_true, Bool.and_eq_true, Bool.not_eq_true', List.isEmpty_eq_false_iff, decide_eq_true_eq, ne_eq] at hu
              grind)
           | (rename_i k0 hk0 hlt
              obtain ⟨_, g2⟩ := h5 _ hk0
              intro k hk
              simp only [Starter.at.injEq] at hk
              subst hk
              exact ⟨by omega, fun i hi => g2 i (by omega)⟩)
           | (intro hu
              obtain ⟨j, hj⟩ := h15 hu
              refine ⟨j, ?_⟩
              have : j ≠ i := by grind
              grind [upd_apply])
           | skip

/-- The children's outcomes and where their threads are. -/
structure InvB (c : Cfg) (s : St) : Prop where
  oc : ∀ i, s.pc i = .wait ↔ s.outcome i = none
  ld : ∀ i v, s.pc i = .load v → s.outcome i = some (.value v)
  cp : ∀ i v, s.pc i = .copy v → s.outcome i = some (.value (some v))
  rc : ∀ i, s.pc i = .record → ∃ v, s.outcome i = some (.value v)
  se : ∀ i e, s.pc i = .setErr e → s.outcome i = some (.error e)
  re : ∀ i e, s.pc i = .reqErr e → s.outcome i = some (.error e) ∧ i ∈ s.errLog
  sv : ∀ i e, s.pc i = .saveErr e → s.outcome i = some (.error e) ∧ i ∈ s.errLog
  ca : ∀ i, s.pc i = .cas → s.outcome i = some .stopped
  rq : ∀ i, s.pc i = .reqStop → s.outcome i = some .stopped
  el : ∀ i, i ∈ s.errLog → ∃ e, s.outcome i = some (.error e)
  el2 : ∀ i e, s.outcome i = some (.error e) → s.pc i = .setErr e ∨ i ∈ s.errLog
  ps : s.phase = .started → s.errLog = [] ∧ s.err = none ∧
    (∀ i e, s.outcome i = some (.error e) → s.pc i = .setErr e) ∧ (∀ i, s.outcome i = some .stopped → s.pc i = .cas)
  pp : s.phase = .stopped → s.errLog = [] ∧ ∃ i, s.outcome i = some .stopped ∧ s.pc i ≠ .cas
  pe : s.phase = .error → ∃ l i e, s.errLog = l ++ [i] ∧ s.outcome i = some (.error e) ∧
    (s.pc i = .reqErr e ∨ s.pc i = .saveErr e ∨ s.err = some e) ∧
    ∀ j e', s.pc j = .reqErr e' ∨ s.pc j = .saveErr e' → j = i
  src : s.phase ≠ .started → s.srcStopped = true ∨ ∃ i, s.pc i = .reqStop ∨ ∃ e, s.pc i = .reqErr e

theorem invB_init (c : Cfg) : InvB c (init c) := by
  constructor <;> simp [init]

set_option maxHeartbeats 8000000 in
theorem invB_child {c : Cfg} {s s' : St} {i : Nat} {r : Option Nat} (h : InvB c s)
    (he : stepChild c s i r = some s') : InvB c s' := by
  obtain ⟨h1, h2, h3, h4, h5, h6, h7, h8, h9, h10, h11, h12, h13, h14, h15⟩ := h
  simp only [stepChild] at he
  cases hp : s.pc i <;> simp only [hp] at he <;> (repeat' split at he) <;>
    first
    | (simp at he; done)
    | (simp only [Option.some.injEq] at he
       subst he
       try simp only [note] at *
       constructor <;> first
         | assumption
         | grind [upd_apply]
         | (intro hph
            refine .inr ⟨i, ?_⟩
            grind [upd_apply])
         | (intro hph
            rcases h15 (by grind) with h | ⟨k, hk⟩
            · exact .inl h
            · refine .inr ⟨k, ?_⟩
              grind [upd_apply])
         | (intro hph
            refine ⟨[], i, ?_⟩
            grind [upd_apply])
         | skip)

end Verif.NvWhenAll
