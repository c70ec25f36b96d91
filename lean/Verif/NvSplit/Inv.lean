import Verif.NvSplit.Model

/-! # nvexec `split` — invariants (C84) -/
namespace Verif.NvSplit

/-- The operations that the notifier has still to complete. -/
def Ntf.rest : Ntf → List Nat
  | .pick r => r
  | .reset k r | .wait k r | .deliver k r => k :: r
  | _ => []

/-- The notifier has exchanged the list. -/
def Ntf.past : Ntf → Bool
  | .pick _ | .reset _ _ | .wait _ _ | .deliver _ _ | .done => true
  | _ => false

/-- The notifier is about to exchange the list. -/
def Ntf.early : Ntf → Bool
  | .result _ | .record | .xchg => true
  | _ => false

/-- The operation is in the list, or was. -/
def Op.in : Op → Bool
  | .check | .go | .started => true
  | _ => false

/-- The operation notifies itself. -/
def Op.self : Op → Bool
  | .reset | .wait | .deliver => true
  | _ => false

/-- The waiting operations. -/
def W (s : St) : List Nat := match s.head with
  | some l => l
  | none => s.ntf.rest

structure InvA (c : Cfg) (s : St) : Prop where
  off : ∀ i, c.n ≤ i → s.op i = .off
  nodup : (W s).Nodup
  mem : ∀ i, i ∈ W s ↔ ((s.op i).in = true ∧ s.results i = [])
  pre : ∀ i, (s.op i).in = false → s.op i ≠ .gone → s.results i = []
  first : ∀ i, s.op i = .check ∨ s.op i = .go → s.starts = 0 ∧ s.skipped = false ∧ s.head ≠ some []
  uniq : ∀ i j, s.op i = .check ∨ s.op i = .go → s.op j = .check ∨ s.op j = .go → i = j
  one : ∀ i, (s.results i).length ≤ 1
  empty : s.head = some [] → s.starts = 0 ∧ s.skipped = false
  nopast : s.head = none ↔ s.ntf.past = true
  idle : s.ntf = .idle ↔ (s.outcome = none ∧ s.skipped = false)
  starts : s.starts ≤ 1
  excl : s.skipped = true → s.starts = 0
  oc : s.outcome ≠ none → s.starts = 1
  self : ∀ i, (s.op i).self = true → s.head = none
  opu : s.opUaf = false

theorem invA_init (c : Cfg) : InvA c (init c) := by
  constructor <;> simp [init, W, Op.in, Op.self, Ntf.past]

theorem mem_getD {l : Option (List Nat)} (h : l ≠ none) : l = some (l.getD []) := by
  cases l <;> simp_all

theorem alive_of_in {o : Op} (h : o.in = true) : o.alive = true := by cases o <;> simp_all [Op.in, Op.alive]

set_option maxHeartbeats 8000000 in
theorem invA_step (c : Cfg) (s : St) (a : Act) (s' : St) (h : InvA c s) (he : step c s a = some s') : InvA c s' := by
  obtain ⟨off, nodup, mem, pre, first, uniq, one, empty, nopast, idle, starts, excl, oc, self, opu⟩ := h
  cases a <;> simp only [step, stepNtf, stepOp, St.release] at he <;> (repeat' split at he) <;>
    first
    | (simp at he; done)
    | (simp only [Option.some.injEq] at he; subst he
       try simp only [St.touch, St.touchOp, St.note]
       constructor <;> (try dsimp only) <;>
        first
        | assumption
        | grind [St.touch, St.touchOp, St.note, Op.in, Op.self, Ntf.past, Ntf.rest, W, upd_apply, Op.alive, alive_of_in]
        | (simp_all [Op.in, Op.self, Ntf.past, Ntf.rest, W]; done)
        | (intro i hi; refine ⟨(first i ?_).1, (first i ?_).2.1, ?_⟩ <;> first | assumption | simp)
        | skip)

theorem invA {c : Cfg} {s : St} (h : Reachable c s) : InvA c s :=
  Reach.inv (InvA c) (invA_init c) (invA_step c) s h

end Verif.NvSplit
