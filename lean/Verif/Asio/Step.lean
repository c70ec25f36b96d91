import Verif.Asio.Inv
set_option maxHeartbeats 4000000
namespace Verif.Asio
set_option hygiene false

/-- all fields of the invariant, for `grind` -/
macro "fields" : tactic => `(tactic| (
  have e_notown := h.notown; have e_dep := h.dep; have e_dep0 := h.dep0; have e_fr := h.fr; have e_run1 := h.run1
  have e_run0 := h.run0; have e_tl := h.tl; have e_pu := h.pu; have e_st1 := h.st1; have e_st0 := h.st0
  have e_arm := h.arm; have e_runE := h.runE; have e_ranE := h.ranE; have e_emE := h.emE; have e_off1 := h.off1
  have e_self := h.self; have e_nc0 := h.nc0; have e_nc1 := h.nc1; have e_nf0 := h.nf0; have e_nf1 := h.nf1
  have e_exq := h.exq; have e_offS := h.offS; have e_p0 := h.p0; have e_p1 := h.p1; have e_p2 := h.p2; have e_p3 := h.p3
  have e_p4 := h.p4; have e_p5 := h.p5; have e_p6 := h.p6))

theorem ids_nil (l : List Rec) (h : nOwn l = 0) : ids l = [] := by
  have := nOwn_ids l; cases hl : ids l <;> simp_all

macro "gr" : tactic => `(tactic| (grind (splits := 20) [upd, nOwn, nEmit, nWant, nTail, nTop, nPU, nSt, nCall0, nCall1, nFin0, nFin1, nUn, nPost, ids, bottom, St.unlock, St.touch, St.lock]))

theorem nTail_of_nTop (l : List Rec) (h : nTop l = 0) : nTail l = 0 := by
  rcases l with _ | ⟨r, rs⟩
  · rfl
  · rcases r with ⟨k, i, o⟩ | _ | _ | b | b <;> (try cases k) <;> (try cases b) <;>
      simp [nTail, nTop, nWant, nFin0, nFin1, nCall0, nCall1, nPost] at h ⊢ <;> omega

/-- popping keeps the innermost-only records innermost -/
theorem tl_pop {f : Nat → List Rec} {t : Nat} {r : Rec} {rest : List Rec} (h : ∀ u, nTail (f u) = 0)
    (hst : f t = r :: rest) : ∀ u, nTail (upd f t rest u) = 0 := by
  intro u
  by_cases e : u = t
  · subst e; have := h u; rw [hst] at this; simp only [upd, if_true]; exact nTail_of_nTop rest this
  · simp only [upd, if_neg e]; exact h u

theorem off_mono {f g : Nat → List Rec} (hm : ∀ u, nSt (f u) ≤ nSt (g u))
    (h : ∃ t, 0 < nSt (f t)) : ∃ t, 0 < nSt (g t) := by
  obtain ⟨t, h⟩ := h
  exact ⟨t, by have := hm t; omega⟩

/-- A new frame on a stack running user code. -/
theorem inv_push (s : St) (p : Ph) (t : Nat) (k : Kind) (h : InvP s p) (hu : userTop (s.stk t) = true)
    (hl : s.lockable t = true) (hk : k = .run ∨ k = .drop)
    (hp : p = .live ∨ p = .dropping t) : InvP (s.push t k) p := by
  have hT := userTop_nTop _ hu (h.tl t)
  simp only [nTop] at hT
  have hal : s.alive = true := by rcases hp with rfl | rfl <;> grind [InvP]
  simp only [St.lockable, Bool.or_eq_true, beq_iff_eq] at hl
  have hdep : s.depth + 1 = nOwn (s.stk t) + 1 + nEmit (s.stk t) ∧ s.frames = ids (s.stk t) := by
    rcases hl with hl | hl
    · have a := h.dep0 hl; have b := h.notown t (by simp [hl]); have c := ids_nil _ b.1
      rw [a.1, a.2, b.1, b.2, c]; simp
    · have a := h.dep t hl; have b := h.fr t hl; exact ⟨by omega, b⟩
  have hno : ∀ u, u ≠ t → nOwn (s.stk u) = 0 ∧ nEmit (s.stk u) = 0 := by
    intro u hu; apply h.notown; rcases hl with hl | hl <;> simp [hl, Ne.symm hu]
  constructor <;> simp only [St.push, St.touch, St.lock]
  case bad => simp [h.bad, hal]
  case asrt => exact h.asrt
  case offS =>
    intro a b; exact off_mono (fun u => by rcases hk with rfl | rfl <;> gr) (h.offS a b)
  all_goals
    fields
    clear h
    first
      | assumption
      | (rcases hk with rfl | rfl <;> gr)
      | skip

theorem inv_start (s : St) (p : Ph) (t : Nat) (h : InvP s p) (hu : s.h = .unborn) :
    InvP { s.push t .init with h := .live } .live := by
  have hp : p = .unborn := by
    cases p <;> first | rfl | (exfalso; fields; clear h; grind)
  subst hp
  obtain ⟨_, hal, hdn, hab, hst, hcb, hth, hem⟩ := h.p0 rfl
  have ho : s.owner = none := by
    cases ho : s.owner with
    | none => rfl
    | some u => have := h.dep u ho; rw [hst u] at this; simp [nOwn, nEmit] at this; omega
  have hd := h.dep0 ho
  have hex := h.exq hdn
  constructor <;> simp only [St.push, St.touch, St.lock]
  case bad => simp [h.bad, hal]
  case asrt => exact h.asrt
  case offS => intro _ _; exact ⟨t, by simp [upd, nSt]⟩
  all_goals
    clear h
    first
      | assumption
      | gr
      | skip

theorem inv_catch (s : St) (p : Ph) (thr : Option Nat) (a : Bool) (h : InvP s p)
    (ha : thr ≠ none → a = false ∧ s.alive = true ∧ s.h ≠ .unborn) : InvP (s.catch_ thr a) p := by
  cases thr with
  | none => exact h
  | some e =>
    obtain ⟨rfl, hal, hnu⟩ := ha (by simp)
    have hdn : s.done = [] := by
      cases p <;> fields <;> clear h <;> grind
    have hex := h.exq hdn
    constructor <;> simp only [St.catch_, St.touch]
    case bad => simp [h.bad, hal]
    case asrt => simp [h.asrt]
    case exq => intro _; rw [hex]; cases s.thrown <;> simp
    case offS => exact h.offS
    all_goals
      fields
      clear h
      first
        | assumption
        | gr
        | skip

theorem inv_pop (s : St) (p : Ph) (t : Nat) (k : Kind) (id : Nat) (o : Bool) (rest : List Rec) (h : InvP s p)
    (hst : s.stk t = .frame k id o :: rest) (hk : k = .run ∨ k = .fini ∨ k = .drop) :
    ∃ p', InvP (s.pop t id o rest) p' := by
  cases o with
  | false =>
    refine ⟨p, ?_⟩
    simp only [St.pop, Bool.false_eq_true, if_false]
    constructor <;> simp only
    case bad => exact h.bad
    case asrt => exact h.asrt
    case tl => exact tl_pop h.tl hst
    case offS =>
      intro a b; exact off_mono (fun u => by rcases hk with rfl | rfl | rfl <;> gr) (h.offS a b)
    all_goals
      fields
      clear h
      first
        | assumption
        | (rcases hk with rfl | rfl | rfl <;> gr)
        | skip
  | true =>
    have ho : s.owner = some t := by
      by_cases ho : s.owner = some t
      · exact ho
      · have := h.notown t ho; rw [hst] at this; simp [nOwn] at this
    have hfr := h.fr t ho
    have hdp := h.dep t ho
    rw [hst] at hfr hdp
    simp only [ids, nOwn, nEmit] at hfr hdp
    have hp : p = .live ∨ p = .dropping t := by
      cases p <;> fields <;> clear h <;> grind [nOwn]
    have hal : s.alive = true := by rcases hp with rfl | rfl <;> grind [InvP]
    by_cases hc : ids rest = [] ∧ s.abandoned = true
    · have hp : p = .dropping t := by rcases hp with rfl | rfl <;> grind [InvP]
      subst hp
      have hno : nOwn rest = 0 := by rw [← nOwn_ids, hc.1]; rfl
      have hb := (h.p4 t rfl).2.2.2.2.2.1
      have hne : nEmit rest = 0 := by
        rw [hst] at hb
        cases hbr : bottom rest with
        | none => exact ((bottom_none rest).1 hbr).2
        | some b =>
          simp only [bottom, hbr] at hb
          have := bottom_true rest (by rw [hbr, Option.some.inj hb]); omega
      refine ⟨.finishing t, ?_⟩
      simp only [St.pop, if_true, St.touch, hfr, List.tail_cons, hc.1, hc.2, and_self]
      constructor <;> simp only [St.unlock]
      case bad => simp [h.bad, hal]
      case asrt => simp [h.asrt]
      all_goals
        fields
        clear h
        first
          | assumption
          | (rcases hk with rfl | rfl | rfl <;> gr)
          | skip
    · refine ⟨p, ?_⟩
      simp only [St.pop, if_true, St.touch, hfr, List.tail_cons, if_neg hc]
      constructor <;> simp only [St.unlock]
      case bad => simp [h.bad, hal]
      case asrt => simp [h.asrt]
      case tl => exact tl_pop h.tl hst
      case dep0 =>
        intro hn
        split at hn
        · rename_i hz; exact ⟨hz, ids_nil _ (by omega)⟩
        · rw [ho] at hn; cases hn
      case p4 =>
        intro u hu
        have hq := h.p4 u hu
        have hut : u = t := by have := hq.2.2.2.2.1; rw [ho] at this; exact (Option.some.inj this).symm
        subst hut
        have hab : ids rest ≠ [] := fun e => hc ⟨e, hq.2.2.2.1⟩
        have hno : nOwn rest ≠ 0 := fun e => hab (ids_nil _ e)
        have hun := hq.2.2.2.2.2.2
        have hb := hq.2.2.2.2.2.1
        refine ⟨hq.1, hq.2.1, hq.2.2.1, hq.2.2.2.1, ?_, ?_, ?_⟩
        · rw [if_neg (by omega)]; exact ho
        · simp only [upd, if_true]
          rw [hst] at hb
          cases hbr : bottom rest with
          | none => exact absurd ((bottom_none rest).1 hbr).1 hno
          | some b => simp only [bottom, hbr] at hb; exact hb
        · clear h; gr
      case offS =>
        intro a b; exact off_mono (fun u => by rcases hk with rfl | rfl | rfl <;> gr) (h.offS a b)
      all_goals
        fields
        clear h
        first
          | assumption
          | (rcases hk with rfl | rfl | rfl <;> gr)
          | skip
end Verif.Asio
