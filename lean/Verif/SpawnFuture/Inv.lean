import Verif.SpawnFuture.Model
/-! # `spawn_future`: the invariant -/
namespace Verif.SpawnFuture

/-- The consumer has not yet done its deciding access. -/
@[grind] def CPc.early : CPc → Bool
  | .idle | .constructing | .cas | .threw | .abStop | .abXchg => true
  | _ => false

/-- The consumer is on the abandoning path. -/
@[grind] def CPc.ab : CPc → Bool
  | .threw | .abStop | .abXchg => true
  | _ => false

/-- The consumer will still complete the receiver, or register it. -/
@[grind] def CPc.owes : CPc → Bool
  | .idle | .constructing | .cas | .xchg | .consume | .setStopped => true
  | _ => false

/-- The canceller may still access the state. -/
@[grind] def KPc.uses : KPc → Bool
  | .stopReq | .cas | .xchg => true
  | _ => false

/-- The producer may still access the state. -/
@[grind] def PPc.pre : PPc → Bool
  | .running | .xchg => true
  | _ => false

/-- The consumer will not access the state any more. -/
@[grind] def CPc.fin : CPc → Bool
  | .done | .setStopped => true
  | _ => false

/-- The invariant, in executions in which the producer does not find the receiver while nested in the canceller. -/
structure Inv (s : St) : Prop where
  uaf : s.uaf = false
  st : s.stored = none ↔ s.p = .running
  -- the registered word
  rN : s.reg = .null → s.c.early = true ∧ s.p.pre = true ∧ (s.k = .idle ∨ s.k = .stopReq ∨ s.k = .cas)
  rR : s.reg = .rcvr → s.c = .done ∧ s.p.pre = true ∧ (s.k = .idle ∨ s.k.uses = true ∨ s.k = .ret ∨ s.k = .done) ∧
    s.results = [] ∧ s.started = true ∧ s.threw = false ∧ s.cb ≠ .destroyed
  r1 : s.reg = .selfp1 → (s.c = .constructing ∨ s.c = .cas ∨ s.c = .xchg) ∧ s.p.pre = true ∧ (s.k = .ret ∨ s.k = .done)
  rS : s.reg = .self → s.p.pre = true → s.c.fin = true ∧ s.cb ≠ .armed ∧ s.k.uses = false
  rC : s.reg = .self → s.c.early = true ∨ s.c = .xchg → s.p = .done
  -- the parties
  pD : s.p = .destroy → s.c.fin = true ∧ s.cb ≠ .armed ∧ s.k.uses = false
  pC : s.p = .callback → s.c = .done ∧ s.reg = .self ∧ s.k ≠ .complete ∧ s.results = [] ∧ s.started = true ∧
    s.threw = false ∧ s.cb ≠ .destroyed
  nst : s.p = .callback → s.ploc ≠ .inK
  pDn : s.p = .destroy ∨ s.p = .done → s.reg = .self
  cX : s.c = .xchg → s.reg = .selfp1 ∨ s.reg = .self
  cX2 : s.c = .xchg ∨ s.c = .setStopped → (s.k = .ret ∨ s.k = .done) ∧ s.stop = true
  cC : s.c = .consume ∨ s.c = .destroy → s.p = .done ∧ s.reg = .self
  cD : s.c = .destroy → s.cb ≠ .armed ∧ s.cb ≠ .running ∧ s.k.uses = false
  cS : s.c = .setStopped → s.reg = .self
  cDone : s.c = .done → s.reg ≠ .null ∧ s.reg ≠ .selfp1
  kC : s.k = .complete → s.reg = .self ∧ s.c = .done ∧ s.results = [] ∧ s.started = true ∧ s.threw = false ∧
    s.stop = true
  kX : s.k = .xchg → s.reg = .rcvr ∨ s.p = .callback
  cons : s.c = .constructing ↔ s.kInC = true ∧ s.k ≠ .done
  kIn : s.kInC = true → s.k ≠ .idle ∧ s.c ≠ .idle ∧ s.c.ab = false
  kcb : s.k.uses = true ∨ s.k = .complete → s.cb = .running
  kret : s.k = .ret → s.cb = .running ∨ s.cb = .destroyed
  krun : s.cb = .running → s.k ≠ .idle ∧ s.k ≠ .done
  kstop : s.k ≠ .idle → s.stop = true
  cbi : s.c = .idle ∨ s.c.ab = true ∨ s.started = false ∨ s.threw = true → s.cb = .none
  cbs : s.started = true → s.threw = false → s.cb ≠ .none
  cbd : s.cb = .destroyed → s.results ≠ []
  arm : s.cb = .armed → s.k = .idle ∧ s.stop = false
  -- results
  owes : s.c.owes = true → s.results = [] ∧ s.threw = false
  th : s.threw = true → s.results = [.exn]
  ns : s.started = false ↔ s.c = .idle ∨ s.abandoned = true
  nsr : s.started = false → s.results = [] ∧ s.threw = false
  abn : s.abandoned = true → s.started = false
  idle : s.c = .idle → s.started = false ∧ s.abandoned = false
  thc : s.c = .threw → s.threw = true
  abt : s.c.ab = true → s.threw = true ∨ s.abandoned = true
  notab : s.c = .constructing ∨ s.c = .cas ∨ s.c = .xchg ∨ s.c = .consume ∨ s.c = .setStopped → s.started = true
  res : s.results = [] ∨ ∃ r, s.results = [r] ∧
    ((s.threw = true ∧ r = .exn) ∨ s.stored = some r ∨ (r = .stopped ∧ s.stop = true))
  todo : s.results = [] → s.started = true → s.reg = .rcvr ∨ s.p = .callback ∨ s.k = .complete ∨ s.c.owes = true
  -- destruction
  alive : s.destroys = 0 ∨ (s.destroys = 1 ∧ s.p = .done ∧ s.c.fin = true ∧ s.cb ≠ .armed ∧ s.k.uses = false ∧ s.reg = .self)
  dead : s.p = .done → s.destroys = 0 → s.c.early = true ∨ s.c = .xchg ∨ s.c = .consume ∨ s.c = .destroy

/-- Split the goal into the invariant's fields and close those that are unaffected. -/
macro "std" h:ident : tactic => `(tactic| (
  constructor
  case' uaf => (first | exact Inv.uaf $h | (have hkp := Inv.uaf $h; clear $h; grind) | skip)
  case' st => (first | exact Inv.st $h | (have hkp := Inv.st $h; clear $h; grind) | skip)
  case' rN => (first | exact Inv.rN $h | (have hkp := Inv.rN $h; clear $h; grind) | skip)
  case' rR => (first | exact Inv.rR $h | (have hkp := Inv.rR $h; clear $h; grind) | skip)
  case' r1 => (first | exact Inv.r1 $h | (have hkp := Inv.r1 $h; clear $h; grind) | skip)
  case' rS => (first | exact Inv.rS $h | (have hkp := Inv.rS $h; clear $h; grind) | skip)
  case' rC => (first | exact Inv.rC $h | (have hkp := Inv.rC $h; clear $h; grind) | skip)
  case' pD => (first | exact Inv.pD $h | (have hkp := Inv.pD $h; clear $h; grind) | skip)
  case' pC => (first | exact Inv.pC $h | (have hkp := Inv.pC $h; clear $h; grind) | skip)
  case' nst => (first | exact Inv.nst $h | (have hkp := Inv.nst $h; clear $h; grind) | skip)
  case' pDn => (first | exact Inv.pDn $h | (have hkp := Inv.pDn $h; clear $h; grind) | skip)
  case' cX => (first | exact Inv.cX $h | (have hkp := Inv.cX $h; clear $h; grind) | skip)
  case' cX2 => (first | exact Inv.cX2 $h | (have hkp := Inv.cX2 $h; clear $h; grind) | skip)
  case' cC => (first | exact Inv.cC $h | (have hkp := Inv.cC $h; clear $h; grind) | skip)
  case' cD => (first | exact Inv.cD $h | (have hkp := Inv.cD $h; clear $h; grind) | skip)
  case' cS => (first | exact Inv.cS $h | (have hkp := Inv.cS $h; clear $h; grind) | skip)
  case' cDone => (first | exact Inv.cDone $h | (have hkp := Inv.cDone $h; clear $h; grind) | skip)
  case' kC => (first | exact Inv.kC $h | (have hkp := Inv.kC $h; clear $h; grind) | skip)
  case' kX => (first | exact Inv.kX $h | (have hkp := Inv.kX $h; clear $h; grind) | skip)
  case' cons => (first | exact Inv.cons $h | (have hkp := Inv.cons $h; clear $h; grind) | skip)
  case' kIn => (first | exact Inv.kIn $h | (have hkp := Inv.kIn $h; clear $h; grind) | skip)
  case' kcb => (first | exact Inv.kcb $h | (have hkp := Inv.kcb $h; clear $h; grind) | skip)
  case' kret => (first | exact Inv.kret $h | (have hkp := Inv.kret $h; clear $h; grind) | skip)
  case' krun => (first | exact Inv.krun $h | (have hkp := Inv.krun $h; clear $h; grind) | skip)
  case' kstop => (first | exact Inv.kstop $h | (have hkp := Inv.kstop $h; clear $h; grind) | skip)
  case' cbi => (first | exact Inv.cbi $h | (have hkp := Inv.cbi $h; clear $h; grind) | skip)
  case' cbs => (first | exact Inv.cbs $h | (have hkp := Inv.cbs $h; clear $h; grind) | skip)
  case' cbd => (first | exact Inv.cbd $h | (have hkp := Inv.cbd $h; clear $h; grind) | skip)
  case' arm => (first | exact Inv.arm $h | (have hkp := Inv.arm $h; clear $h; grind) | skip)
  case' owes => (first | exact Inv.owes $h | (have hkp := Inv.owes $h; clear $h; grind) | skip)
  case' th => (first | exact Inv.th $h | (have hkp := Inv.th $h; clear $h; grind) | skip)
  case' ns => (first | exact Inv.ns $h | (have hkp := Inv.ns $h; clear $h; grind) | skip)
  case' nsr => (first | exact Inv.nsr $h | (have hkp := Inv.nsr $h; clear $h; grind) | skip)
  case' abn => (first | exact Inv.abn $h | (have hkp := Inv.abn $h; clear $h; grind) | skip)
  case' idle => (first | exact Inv.idle $h | (have hkp := Inv.idle $h; clear $h; grind) | skip)
  case' thc => (first | exact Inv.thc $h | (have hkp := Inv.thc $h; clear $h; grind) | skip)
  case' abt => (first | exact Inv.abt $h | (have hkp := Inv.abt $h; clear $h; grind) | skip)
  case' notab => (first | exact Inv.notab $h | (have hkp := Inv.notab $h; clear $h; grind) | skip)
  case' res => (first | exact Inv.res $h | (have hkp := Inv.res $h; clear $h; grind) | skip)
  case' todo => (first | exact Inv.todo $h | (have hkp := Inv.todo $h; clear $h; grind) | skip)
  case' alive => (first | exact Inv.alive $h | (have hkp := Inv.alive $h; clear $h; grind) | skip)
  case' dead => (first | exact Inv.dead $h | (have hkp := Inv.dead $h; clear $h; grind) | skip)
  ))


/-- Use every field of the invariant. -/
macro "full" h:ident : tactic => `(tactic| (
  have hh_uaf := Inv.uaf $h
  have hh_st := Inv.st $h
  have hh_rN := Inv.rN $h
  have hh_rR := Inv.rR $h
  have hh_r1 := Inv.r1 $h
  have hh_rS := Inv.rS $h
  have hh_rC := Inv.rC $h
  have hh_pD := Inv.pD $h
  have hh_pC := Inv.pC $h
  have hh_nst := Inv.nst $h
  have hh_pDn := Inv.pDn $h
  have hh_cX := Inv.cX $h
  have hh_cX2 := Inv.cX2 $h
  have hh_cC := Inv.cC $h
  have hh_cD := Inv.cD $h
  have hh_cS := Inv.cS $h
  have hh_cDone := Inv.cDone $h
  have hh_kC := Inv.kC $h
  have hh_kX := Inv.kX $h
  have hh_cons := Inv.cons $h
  have hh_kIn := Inv.kIn $h
  have hh_kcb := Inv.kcb $h
  have hh_kret := Inv.kret $h
  have hh_krun := Inv.krun $h
  have hh_kstop := Inv.kstop $h
  have hh_cbi := Inv.cbi $h
  have hh_cbs := Inv.cbs $h
  have hh_cbd := Inv.cbd $h
  have hh_arm := Inv.arm $h
  have hh_owes := Inv.owes $h
  have hh_th := Inv.th $h
  have hh_ns := Inv.ns $h
  have hh_nsr := Inv.nsr $h
  have hh_abn := Inv.abn $h
  have hh_idle := Inv.idle $h
  have hh_thc := Inv.thc $h
  have hh_abt := Inv.abt $h
  have hh_notab := Inv.notab $h
  have hh_res := Inv.res $h
  have hh_todo := Inv.todo $h
  have hh_alive := Inv.alive $h
  have hh_dead := Inv.dead $h
  clear $h
  grind))

theorem inv_init : Inv init := by
  constructor <;> simp [init, CPc.early, CPc.ab, CPc.owes, CPc.fin, KPc.uses, PPc.pre]

section
variable (s : St)
@[simp, grind =] theorem touch_reg : (touch s).reg = s.reg := rfl
@[simp, grind =] theorem touch_ploc : (touch s).ploc = s.ploc := rfl
end

set_option maxHeartbeats 8000000 in
theorem inv_step {s s' : St} {a : Act} (h : Inv s) (hs : step s a = some s') (hn : s'.nested = false) : Inv s' := by
  have hal := h.alive
  cases a with
  | finish loc o throws =>
    simp only [step] at hs
    split at hs <;> cases hs
    rename_i hc
    simp only [touch] at hn ⊢
    std h
    all_goals full h
  | p =>
    simp only [step] at hs
    cases hp : s.p <;> simp only [hp] at hs
    case xchg =>
      cases hr : s.reg <;> simp only [touch_reg, hr] at hs <;> cases hs <;> simp only [touch] at hn ⊢ <;> std h
      all_goals full h
    case callback =>
      obtain ⟨r, hr⟩ : ∃ r, s.stored = some r := by
        have := h.st
        cases hst : s.stored with
        | none => simp [hp, hst] at this
        | some r => exact ⟨r, rfl⟩
      have he := (h.pC hp).2.2.2.1
      split at hs <;> cases hs
      simp only [touch, deliver, cbFree, hr, he, Option.getD_some, List.nil_append] at *
      std h
      all_goals full h
    case destroy =>
      cases hs
      simp only [touch, destroy] at *
      std h
      all_goals full h
    all_goals cases hs
  | k =>
    simp only [step] at hs
    cases hp : s.k <;> simp only [hp] at hs
    case stopReq =>
      split at hs <;> cases hs
      simp only [touch, nestOver] at *
      std h
      all_goals full h
    case cas =>
      have hcb := h.kcb (.inl (by simp [hp, KPc.uses]))
      have hci := h.cbi
      have hc' : s.reg = .null → s.c = .constructing ∨ s.c = .cas := by
        intro hr0
        have := (h.rN hr0).1
        cases hcc : s.c <;> simp_all [CPc.early, CPc.ab]
      have hp' : s.reg = .null → s.p.pre = true := fun hr0 => (h.rN hr0).2.1
      clear hci
      cases hr : s.reg <;> simp only [touch_reg, hr] at hs <;> cases hs <;> simp only [touch] at hn ⊢ <;> std h
      all_goals full h
    case xchg =>
      split at hs <;> cases hs <;> simp only [touch] at * <;> std h
      all_goals full h
    case complete =>
      cases hs
      simp only [deliver] at *
      std h
      all_goals full h
    case ret =>
      split at hs <;> cases hs <;> simp only at * <;> std h
      all_goals full h
    all_goals cases hs
  | c =>
    simp only [step] at hs
    cases hp : s.c <;> simp only [hp] at hs
    case cas =>
      cases hr : s.reg <;> simp only [touch_reg, hr] at hs <;> cases hs <;> simp only [touch] at hn ⊢ <;> std h
      all_goals full h
    case xchg =>
      split at hs <;> cases hs <;> simp only [touch] at * <;> std h
      all_goals full h
    case consume =>
      obtain ⟨r, hr⟩ : ∃ r, s.stored = some r := by
        have := h.st
        cases hst : s.stored with
        | none => simp [(h.cC (.inl hp)).1, hst] at this
        | some r => exact ⟨r, rfl⟩
      have he := (h.owes (by simp [hp, CPc.owes])).1
      split at hs <;> cases hs
      simp only [touch, deliver, cbFree, hr, he, Option.getD_some, List.nil_append] at *
      std h
      all_goals full h
    case setStopped =>
      split at hs <;> cases hs
      simp only [touch, deliver, cbFree] at *
      std h
      all_goals full h
    case destroy =>
      cases hs
      simp only [touch, destroy] at *
      std h
      all_goals full h
    case abStop =>
      split at hs <;> cases hs
      simp only [touch, nestOver] at *
      std h
      all_goals full h
    case abXchg =>
      have hrR := h.rR
      have hr1 := h.r1
      have hrC := h.rC
      have hpd : s.reg ≠ .null → s.p = .done ∧ s.reg = .self := by
        cases hr : s.reg <;> simp_all [CPc.early]
      clear hrR hr1 hrC
      split at hs <;> cases hs <;> simp only [touch] at * <;> std h
      all_goals full h
    all_goals cases hs
  | start throws =>
    simp only [step] at hs
    (repeat' split at hs) <;> cases hs <;> simp only at * <;> std h
    all_goals full h
  | abandon =>
    simp only [step] at hs
    (repeat' split at hs) <;> cases hs <;> simp only at * <;> std h
    all_goals full h
  | stop =>
    simp only [step] at hs
    (repeat' split at hs) <;> cases hs <;> simp only [touch] at * <;> std h
    all_goals full h

theorem nested_mono {s s' : St} {a : Act} (hs : step s a = some s') (hp : s.p = .xchg → s.nested = false)
    (hn : s'.nested = false) : s.nested = false := by
  cases a <;> simp only [step] at hs <;> (repeat' split at hs) <;> cases hs <;>
    simp_all [touch, destroy, deliver]

end Verif.SpawnFuture
