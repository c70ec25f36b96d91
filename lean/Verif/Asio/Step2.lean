import Verif.Asio.Step
set_option maxHeartbeats 4000000
namespace Verif.Asio
set_option hygiene false

/-- The thread whose stack holds an unreleased frame or an emission owns the mutex, and the operation is alive. -/
theorem top_owner {s : St} {p : Ph} (h : InvP s p) (t : Nat) (hn : 0 < nOwn (s.stk t) + nEmit (s.stk t)) :
    s.owner = some t := by
  by_cases ho : s.owner = some t
  · exact ho
  · have := h.notown t ho; omega

theorem owned_ph {s : St} {p : Ph} (h : InvP s p) (t : Nat) (hn : 0 < nOwn (s.stk t)) :
    p = .live ∨ p = .dropping t := by
  have ho := top_owner h t (by omega)
  cases p <;> fields <;> clear h <;> grind [nOwn]

theorem ph_alive {s : St} {p : Ph} (h : InvP s p) (t : Nat) (hp : p = .live ∨ p = .dropping t) : s.alive = true := by
  rcases hp with rfl | rfl <;> grind [InvP]

theorem run_alive {s : St} {p : Ph} (h : InvP s p) (t : Nat) (hn : 0 < nWant (s.stk t) + nEmit (s.stk t)) :
    s.alive = true ∧ p ≠ .unborn ∧ p ≠ .called ∧ p ≠ .dropped := by
  have hc : s.cb = .running t := by
    by_cases hc : s.cb = .running t
    · exact hc
    · have := h.run0 t hc; omega
  cases p <;> fields <;> clear h <;> grind

/-- The initiation is over: the frame of `start` changes its state. -/
theorem inv_initEnd (s : St) (p : Ph) (t : Nat) (id : Nat) (o : Bool) (rest : List Rec) (h : InvP s p)
    (hst : s.stk t = .frame .init id o :: rest) :
    InvP { s with stk := upd s.stk t (.frame (if o then .post else .fini) id o :: rest) } p := by
  cases o <;> simp only [if_true, Bool.false_eq_true, if_false] <;> constructor <;> simp only
  case false.bad => exact h.bad
  case true.bad => exact h.bad
  case false.asrt => exact h.asrt
  case true.asrt => exact h.asrt
  case false.offS =>
    intro a b; exact off_mono (fun u => by gr) (h.offS a b)
  case true.offS =>
    intro a b; exact off_mono (fun u => by gr) (h.offS a b)
  all_goals
    fields
    clear h
    first
      | assumption
      | gr
      | skip

theorem inv_emplace_arm (s : St) (p : Ph) (t : Nat) (id : Nat) (o : Bool) (rest : List Rec) (h : InvP s p)
    (hst : s.stk t = .frame .post id o :: rest) (hr : s.stopReq = false) :
    InvP { s.touch with cb := .armed, stk := upd s.stk t (.frame .fini id o :: rest) } p := by
  have ho : o = true := by
    cases o with
    | true => rfl
    | false => have := h.pu t; rw [hst] at this; simp [nPU] at this
  subst ho
  have how := top_owner h t (by rw [hst]; simp [nOwn]; omega)
  have hp := owned_ph h t (by rw [hst]; simp [nOwn])
  have hal := ph_alive h t hp
  have hoth : ∀ u, u ≠ t → nSt (s.stk u) = 0 := by
    intro u hu
    have := nSt_le (s.stk u); have := (h.notown u (by rw [how]; simpa using Ne.symm hu)).1; omega
  have hcb := h.st0 t (by rw [hst]; simp [nSt])
  constructor <;> simp only [St.touch]
  case bad => simp [h.bad, hal]
  case asrt => exact h.asrt
  all_goals
    fields
    clear h
    first
      | assumption
      | gr
      | skip

theorem inv_emplace_run (s : St) (p : Ph) (t : Nat) (id : Nat) (o : Bool) (rest : List Rec) (h : InvP s p)
    (hst : s.stk t = .frame .post id o :: rest) :
    InvP { (s.touch).lock t with cb := .running t, emits := s.emits + 1, stk := upd s.stk t (.emit :: .frame .fini id o :: rest) } p := by
  have ho : o = true := by
    cases o with
    | true => rfl
    | false => have := h.pu t; rw [hst] at this; simp [nPU] at this
  subst ho
  have how := top_owner h t (by rw [hst]; simp [nOwn]; omega)
  have hp := owned_ph h t (by rw [hst]; simp [nOwn])
  have hal := ph_alive h t hp
  have hoth : ∀ u, u ≠ t → nSt (s.stk u) = 0 := by
    intro u hu
    have := nSt_le (s.stk u); have := (h.notown u (by rw [how]; simpa using Ne.symm hu)).1; omega
  have hcb := h.st0 t (by rw [hst]; simp [nSt])
  constructor <;> simp only [St.touch, St.lock]
  case bad => simp [h.bad, hal]
  case asrt => exact h.asrt
  all_goals
    fields
    clear h
    first
      | assumption
      | gr
      | skip

theorem inv_reqStop_run (s : St) (p : Ph) (t : Nat) (h : InvP s p) (hu : userTop (s.stk t) = true) (hc : s.cb = .armed) :
    InvP { s with stopReq := true, cb := .running t, stk := upd s.stk t (.want :: s.stk t) } p := by
  have hT := userTop_nTop _ hu (h.tl t)
  simp only [nTop] at hT
  constructor <;> simp only
  case bad => exact h.bad
  case asrt => exact h.asrt
  all_goals
    fields
    clear h
    first
      | assumption
      | gr
      | skip

theorem inv_reqStop (s : St) (p : Ph) (h : InvP s p) (hc : s.cb ≠ .armed) (hr : s.stopReq = false) :
    InvP { s with stopReq := true } p := by
  constructor <;> simp only
  case bad => exact h.bad
  case asrt => exact h.asrt
  all_goals
    fields
    clear h
    first
      | assumption
      | gr
      | skip

theorem inv_emitLock (s : St) (p : Ph) (t : Nat) (rest : List Rec) (h : InvP s p)
    (hst : s.stk t = .want :: rest) (hl : s.lockable t = true) :
    InvP { (s.touch).lock t with emits := s.emits + 1, stk := upd s.stk t (.emit :: rest) } p := by
  have hw := run_alive h t (by rw [hst]; simp [nWant]; omega)
  have hc : s.cb = .running t := by
    by_cases hc : s.cb = .running t
    · exact hc
    · have := h.run0 t hc; rw [hst] at this; simp [nWant] at this
  have h1 := h.run1 t hc
  have hE := h.runE t hc
  rw [hst] at h1 hE
  simp only [nWant, nEmit] at h1 hE
  simp only [St.lockable, Bool.or_eq_true, beq_iff_eq] at hl
  have hdep : s.depth + 1 = nOwn rest + (nEmit rest + 1) ∧ s.frames = ids rest := by
    rcases hl with hl | hl
    · have a := h.dep0 hl; have b := h.notown t (by simp [hl]); rw [hst] at b; simp only [nOwn, nEmit] at b
      have c := ids_nil _ b.1
      rw [a.1, a.2, b.1, b.2, c]; simp
    · have a := h.dep t hl; have b := h.fr t hl; rw [hst] at a b; simp only [nOwn, nEmit, ids] at a b; exact ⟨by omega, b⟩
  have hno : ∀ u, u ≠ t → nOwn (s.stk u) = 0 ∧ nEmit (s.stk u) = 0 := by
    intro u hu; apply h.notown; rcases hl with hl | hl <;> simp [hl, Ne.symm hu]
  constructor <;> simp only [St.touch, St.lock]
  case bad => simp [h.bad, hw.1]
  case asrt => exact h.asrt
  all_goals
    fields
    clear h
    first
      | assumption
      | gr
      | skip

theorem inv_emitDone (s : St) (p : Ph) (t : Nat) (rest : List Rec) (h : InvP s p)
    (hst : s.stk t = .emit :: rest) :
    InvP { (s.touch).unlock 1 with cb := if s.cb = .running t then .ran else s.cb, stk := upd s.stk t rest } p := by
  have hw := run_alive h t (by rw [hst]; simp [nEmit]; omega)
  have hc : s.cb = .running t := by
    by_cases hc : s.cb = .running t
    · exact hc
    · have := h.run0 t hc; rw [hst] at this; simp [nEmit] at this
  have how := top_owner h t (by rw [hst]; simp [nEmit]; omega)
  have h1 := h.run1 t hc
  have hE := h.runE t hc
  have hD := h.dep t how
  have hF := h.fr t how
  rw [hst] at h1 hE hD hF
  simp only [nWant, nEmit, nOwn, ids] at h1 hE hD hF
  rw [if_pos hc]
  constructor <;> simp only [St.touch, St.unlock]
  case bad => simp [h.bad, hw.1]
  case asrt => exact h.asrt
  case tl => exact tl_pop h.tl hst
  case dep0 =>
    intro hn
    by_cases hz : s.depth - 1 = 0
    · exact ⟨hz, by rw [hF]; exact ids_nil _ (by omega)⟩
    · simp [hz, how] at hn
  case p4 =>
    intro u hu
    have hq := h.p4 u hu
    have hut : u = t := by have := hq.2.2.2.2.1; rw [how] at this; exact (Option.some.inj this).symm
    subst hut
    have hun := hq.2.2.2.2.2.2
    have hb := hq.2.2.2.2.2.1
    have hbr : bottom rest = some true := by
      rw [hst] at hb
      cases hbr : bottom rest with
      | none => simp [bottom, hbr] at hb
      | some b => simp only [bottom, hbr] at hb; exact hb
    have hpos := bottom_true rest hbr
    refine ⟨hq.1, hq.2.1, hq.2.2.1, hq.2.2.2.1, ?_, ?_, ?_⟩
    · have hz : ¬ s.depth - 1 = 0 := by omega
      simp [hz, how]
    · simp only [upd, if_true]; exact hbr
    · clear h; gr
  all_goals
    fields
    clear h
    first
      | assumption
      | gr
      | skip

end Verif.Asio
