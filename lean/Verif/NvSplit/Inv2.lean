import Verif.NvSplit.Inv

/-! # nvexec `split` — invariants of the stop callbacks and of the results (C84) -/
namespace Verif.NvSplit

theorem freed_iff {c : Cfg} {s : St} :
    s.freed c = true ↔ s.senderRef = false ∧ ∀ i < c.n, (s.op i).alive = false := by
  simp only [St.freed, Bool.and_eq_true, Bool.not_eq_true', beq_iff_eq, cnt_zero_iff]

theorem alive_freed {c : Cfg} {s : St} (h : InvA c s) {i : Nat} (hi : (s.op i).alive = true) : s.freed c = false := by
  cases hf : s.freed c with
  | false => rfl
  | true =>
    have := (freed_iff.1 hf).2 i
    by_cases h1 : i < c.n
    · rw [hi] at this; exact absurd (this h1) (by simp)
    · rw [h.off i (by omega)] at hi; cases hi

/-- A waiting operation keeps the shared state. -/
theorem waiting_freed {c : Cfg} {s : St} (h : InvA c s) {i : Nat} (hi : i ∈ W s) : s.freed c = false :=
  alive_freed h (alive_of_in ((h.mem i).1 hi).1)

/-- While the notifier has not exchanged the list, there is a waiting operation. -/
theorem early_freed {c : Cfg} {s : St} (h : InvA c s) (hi : s.ntf.early = true) : s.freed c = false := by
  have h1 : s.head ≠ none := by
    intro h2; rw [h.nopast] at h2; cases hn : s.ntf <;> simp_all [Ntf.past, Ntf.early]
  have h2 : s.head ≠ some [] := by
    intro h2
    have h3 := h.empty h2
    have h4 : s.ntf ≠ .idle := by intro h4; rw [h4] at hi; cases hi
    have h5 := h.idle
    have h6 := h.oc
    cases ho : s.outcome <;> simp_all
  cases hh : s.head with
  | none => exact absurd hh h1
  | some l =>
    cases l with
    | nil => exact absurd hh h2
    | cons k r => exact waiting_freed h (i := k) (by simp [W, hh])

/-- The operation may have a stop callback that has not been reset. -/
def Op.cbOk : Op → Bool
  | .inl _ | .push _ | .check | .go | .started | .reset => true
  | _ => false

/-- The operation has no stop callback yet. -/
def Op.noCb : Op → Bool
  | .off | .fresh | .load | .emplace _ => true
  | _ => false

/-- The notifier has not reset this operation's callback. -/
def Ntf.before : Ntf → Nat → Bool
  | .wait k _, i | .deliver k _, i => k != i
  | _, _ => true

structure InvD (c : Cfg) (s : St) : Prop where
  cb : ∀ i, (s.cb i).busy = true → s.nestedIn = some i ∨
    (s.results i = [] ∧ (s.op i).cbOk = true ∧ s.ntf.before i = true)
  reg : ∀ i, s.reg i = true → s.cb i = .off ∧ s.results i = [] ∧ (s.op i).cbOk = true ∧ s.ntf.before i = true
  early : ∀ i, (s.op i).noCb = true →
    s.cb i = .off ∧ s.reg i = false
  inl : ∀ i l, s.op i = .inl l → s.cb i ≠ .off
  nest : s.nestedIn ≠ none → s.outcome ≠ none
  free1 : s.freed c = true → s.frees = 1
  free0 : s.freed c = false → s.frees = 0
  uaf : s.nestedIn = none → s.uaf = false

theorem invD_init (c : Cfg) : InvD c (init c) := by
  constructor <;> simp [init, Cb.busy, St.freed]

theorem cbOk_alive {o : Op} (h : o.cbOk = true) : o.alive = true := by cases o <;> simp_all [Op.cbOk, Op.alive]

set_option maxHeartbeats 8000000 in
theorem invD_step (c : Cfg) (s : St) (a : Act) (s' : St) (hA : InvA c s) (h : InvD c s) (he : step c s a = some s') :
    InvD c s' := by
  have hA' := invA_step c s a s' hA he
  have hal := @alive_freed c s hA
  have hal' := @alive_freed c s' hA'
  have hwf := @waiting_freed c s hA
  have hef := early_freed hA
  have hmem := hA.mem
  have hoc := hA.oc
  have hidle := hA.idle
  have hpre := hA.pre
  have hbef : ∀ i l, s.op i = .emplace l → s.ntf.before i = true := by
    intro i l h1
    have h2 := (hA.mem i).1
    have h3 := hA.nopast
    cases hn : s.ntf <;> simp_all [Ntf.before, W, Ntf.rest, Ntf.past, Op.in] <;> grind
  have hpreE : ∀ i l, s.op i = .emplace l → s.results i = [] :=
    fun i l h1 => hA.pre i (by simp [h1, Op.in]) (by simp [h1])
  have hfr := @freed_iff c s
  have hfr' := @freed_iff c s'
  have hsp := hA.nopast
  clear hA hA'
  obtain ⟨cb, reg, early, inl, nest, free1, free0, uaf⟩ := h
  cases a <;> simp only [step, stepNtf, stepOp, St.release] at he <;> (repeat' split at he) <;>
    first
    | (simp at he; done)
    | (simp only [Option.some.injEq] at he; subst he
       try simp only [St.touch, St.touchOp, St.note] at hal' hfr'
       try simp only [St.touch, St.touchOp, St.note]
       constructor <;> (try dsimp only) <;>
        first
        | assumption
        | grind [Op.in, Op.self, Ntf.past, Ntf.early, Ntf.rest, W, upd_apply, Op.alive, Op.cbOk, Op.noCb, Ntf.before, Cb.busy, cbOk_alive]
        | (simp_all [St.freed]; done)
        | (intro j; have h1 := reg j; have h2 := cb j; have h3 := early j
           simp only [upd_apply]; split <;> simp_all [Op.cbOk, Op.noCb, Cb.busy]; done)
        | skip)

theorem invAD {c : Cfg} {s : St} (h : Reachable c s) : InvA c s ∧ InvD c s :=
  Reach.inv (fun s => InvA c s ∧ InvD c s) ⟨invA_init c, invD_init c⟩
    (fun s a s' hi he => ⟨invA_step c s a s' hi.1 he, invD_step c s a s' hi.1 hi.2 he⟩) s h

end Verif.NvSplit
