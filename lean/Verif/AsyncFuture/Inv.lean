import Verif.AsyncFuture.Model
/-! # `async_scope::spawn_future` — invariant -/
namespace Verif.AsyncFuture

structure Inv (s : St) : Prop where
  asg : s.assigned = false
  lk : s.lock = true ↔ (s.wpc = .stored ∨ s.wpc = .reset)
  dat : s.data = none ↔ s.wpc = .working
  nfo : s.noFut = true → (s.opc = .gone ∨ s.opc = .dropHanded)
  dh : s.opc = .dropHanded → (s.noFut = true ∧ s.abandoned = true ∧ s.started = false)
  stp : s.step = (if s.opc = .making then .created else if s.noFut then
    (if s.wpc = .delete ∨ s.wpc = .done then .deleted else .noFuture) else .future)
  wt : s.opc = .waiting → (s.subs = true ∧ s.started = true ∧ s.noFut = false)
  wt2 : s.opc = .waiting → (s.wpc ≠ .delete ∧ s.wpc ≠ .complete3 ∧ s.wpc ≠ .done)
  sb : s.subs = true → ((s.opc = .waiting ∨ s.opc = .gone) ∧ s.noFut = false)
  sbg : s.subs = true → s.opc = .gone → (s.wpc = .complete3 ∨ s.wpc = .done)
  wc : (s.wpc = .complete1 ∨ s.wpc = .complete2) → s.opc = .waiting
  wc3 : s.wpc = .complete3 → (s.opc = .gone ∧ s.subs = true)
  wd : s.wpc = .delete → s.noFut = true
  ow : (s.opc = .dropOwned ∨ s.opc = .deleteOwned ∨ s.opc = .complete1 ∨ s.opc = .complete2 ∨ s.opc = .complete3) →
    (s.wpc = .done ∧ s.subs = false)
  ge : s.opc = .gone → (s.noFut = true ∨ s.wpc = .complete3 ∨ s.wpc = .done)
  alv : s.alive = false ↔ (s.wpc = .done ∧ (s.opc = .gone ∨ s.opc = .dropHanded))
  del : s.deletes = (if s.alive then 0 else 1)
  rrun : s.rcb = .running → s.stopR = true
  rreg : s.rcb = .reg → s.stopR = false
  rnone : (s.opc = .making ∨ s.opc = .future ∨ s.opc = .gone ∨ s.opc = .deleteOwned ∨ s.opc = .complete2 ∨
    s.opc = .complete3 ∨ s.wpc = .complete2) → (s.rcb = .none ∨ s.rcb = .dead)
  scd : (s.scb = .reg ∨ s.scb = .running) → (s.wpc = .working ∨ s.wpc = .stored)
  ab : s.abandoned = true → (s.started = false ∧ s.noFut = true)
  strt : s.started = true → (s.opc = .waiting ∨ s.opc = .complete1 ∨ s.opc = .complete2 ∨ s.opc = .complete3 ∨ s.opc = .gone)
  strt2 : (s.opc = .complete1 ∨ s.opc = .complete2 ∨ s.opc = .complete3) → s.started = true
  stnf : s.started = true → s.noFut = false
  lg : s.log.length = (if s.started = true ∧ (s.opc = .gone ∨ s.opc = .complete3) then 1 else 0)
  lgr : ∀ c, c ∈ s.log → (s.data = some c ∨ (c = .stopped ∧ s.stopR = true))
  bd : s.bad = false
  ua : (s.abandoned = false ∨ s.stopR = false) → s.uaf = false

theorem inv_init : Inv init := by
  refine ⟨?_,?_,?_,?_,?_,?_,?_,?_,?_,?_,?_,?_,?_,?_,?_,?_,?_,?_,?_,?_,?_,?_,?_,?_,?_,?_,?_,?_,?_⟩ <;> simp [init]



/-- Every field, with the whole invariant in context. -/
macro "all_fields" h:ident : tactic => `(tactic| (
  obtain ⟨h1, h2, h3, h4, h5, h6, h7, h8, h9, h10, h11, h12, h13, h14, h15, h16, h17, h18, h19, h20, h21, h22, h23, h24, h25, h26, h27, h28, h29⟩ := $h
  constructor <;> first | assumption | grind | (simp_all; done) | skip))

set_option maxHeartbeats 4000000 in
theorem inv_worker {s s' : St} (h : Inv s) (hs : stepW s = some s') : Inv s' := by
  simp only [stepW] at hs
  split at hs <;> try split at hs
  all_goals cases hs
  all_goals try simp only [touch, delete, deliver]
  all_goals have hI := h
  all_goals all_fields hI
  case lgr =>
    have hl : s.log = [] := by have := h.lg; have := h.wc; have := h.ow; have := h.strt2; grind
    have hd : s.data ≠ none := by have := h.dat; have := h.ow; grind
    intro c hc
    simp only [hl, List.nil_append, List.mem_singleton] at hc
    subst hc
    cases hr : s.stopR <;> cases hdd : s.data <;> simp_all

set_option maxHeartbeats 4000000 in
theorem inv_owner {s s' : St} (h : Inv s) (hs : stepO s = some s') : Inv s' := by
  simp only [stepO] at hs
  split at hs <;> try split at hs
  all_goals cases hs
  all_goals try simp only [touch, delete, deliver]
  all_goals have hI := h
  all_goals all_fields hI
  case lgr =>
    have hl : s.log = [] := by have := h.lg; have := h.wc; have := h.ow; have := h.strt2; grind
    have hd : s.data ≠ none := by have := h.dat; have := h.ow; grind
    intro c hc
    simp only [hl, List.nil_append, List.mem_singleton] at hc
    subst hc
    cases hr : s.stopR <;> cases hdd : s.data <;> simp_all

set_option maxHeartbeats 4000000 in
theorem inv_step {s s' : St} (a : Act) (h : Inv s) (hs : step s a = some s') (ha : s'.assigned = false) : Inv s' := by
  cases a
  case worker => exact inv_worker h hs
  case owner => exact inv_owner h hs
  case assignFuture => simp only [step] at hs; split at hs <;> cases hs; simp at ha
  all_goals simp only [step] at hs
  all_goals split at hs
  all_goals try split at hs
  all_goals cases hs
  all_goals try simp only [touch, delete, deliver]
  all_goals have hI := h
  all_goals all_fields hI
  case destroyFuture.isTrue.isTrue.refl.ow =>
    rename_i hc hd _
    have h3 := h.dat; have h2 := h.lk; have h12 := h.wd; have h10 := h.wc; have h11 := h.wc3; have := h.nfo; have := h.sb
    intro _
    cases hw : s.wpc <;> simp_all
  case destroyOp.isTrue.isTrue.refl.ow =>
    rename_i hc hd _
    have h3 := h.dat; have h2 := h.lk; have h12 := h.wd; have h10 := h.wc; have h11 := h.wc3; have := h.nfo; have := h.sb
    intro _
    cases hw : s.wpc <;> simp_all
  case start.isTrue.isTrue.refl.ow =>
    rename_i hc hd _
    have h3 := h.dat; have h2 := h.lk; have h12 := h.wd; have h10 := h.wc; have h11 := h.wc3; have := h.nfo; have := h.sb
    intro _
    cases hw : s.wpc <;> simp_all

theorem assigned_mono {s s' : St} (a : Act) (hs : step s a = some s') (ha : s'.assigned = false) : s.assigned = false := by
  cases a <;> simp only [step, stepW, stepO] at hs
  all_goals repeat' split at hs
  all_goals cases hs
  all_goals simp_all [touch, delete, deliver]

theorem inv_reach {s : St} (h : Reachable s) (ha : s.assigned = false) : Inv s :=
  Reach.inv (fun s => s.assigned = false → Inv s) (fun _ => inv_init)
    (fun _ a _ h hs ha => inv_step a (h (assigned_mono a hs ha)) hs ha) s h ha

end Verif.AsyncFuture
