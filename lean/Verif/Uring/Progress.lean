import Verif.Uring.Leak
import Verif.ListSum
import Verif.Run
/-! Termination of the internal steps: the driving thread, the kernel, and the calls already begun. -/
namespace Verif.Uring
set_option maxHeartbeats 4000000

/-- Actions that are not decisions of the user (or signals). -/
def internal : Act → Bool
  | .drv => true
  | .enter _ => true
  | .kop _ => true
  | .kwake => true
  | .push _ => true
  | .dec _ => true
  | .wakeOp _ => true
  | .wakeStop => true
  | .wakeFin => true
  | _ => false

def opW : OPc → Nat
  | .acc => 30
  | .pushed => 20
  | .wk => 10
  | _ => 0

def cqW : T → Nat
  | .wake => 7
  | .op _ => 1

def efdW : Bool → Nat
  | true => 5
  | false => 0

theorem efdW_le (b : Bool) : efdW b ≤ 5 := by cases b <;> simp [efdW]

def pcW : Pc → Nat
  | .start => 7
  | _ => 0

/-- Work left. -/
def M (s : St) : Nat :=
  lsum opW s.opc (List.range s.n) + 7 * s.req.length + 5 * s.ready.length +
  6 * (s.pend.length + s.tasks.length + s.out.length) + 5 * s.sq.length + 4 * s.ring.length +
  lsum cqW id s.cq + efdW s.efd + 6 * s.oweS + 6 * s.oweF + pcW s.pc

/-- How far the driving thread is from its next useful step. -/
def R (s : St) : Nat :=
  match s.pc with
  | .idle => 0
  | .ret => 1
  | .rdy .last => 2
  | .cq .last => 3
  | .sub2 true => 4 + s.tasks.length
  | .sub true => 6 + s.tasks.length
  | .pop .last => 7 + s.pend.length
  | .cls => 8 + s.pend.length
  | .ex => 9 + s.pend.length
  | .wait => 8
  | .enter => 9
  | .chk => 10 + s.pend.length
  | .sub2 false => 11 + 2 * s.tasks.length + s.out.length
  | .sub false => 12 + 2 * s.tasks.length + s.out.length
  | .rd => 13 + 2 * s.pend.length + s.out.length
  | .pop .some => 14 + 2 * s.pend.length + s.out.length
  | .rdy .first => 15 + 2 * s.pend.length + s.out.length
  | .cq .first => 16 + 2 * s.pend.length + s.out.length
  | .test => 17 + 2 * s.pend.length + s.out.length
  | .pop .after => 18 + 2 * s.pend.length + s.out.length
  | .pop .init => 18 + 2 * s.pend.length + s.out.length
  | .rdy .after => 19 + 2 * s.pend.length + s.out.length
  | .cq .after => if s.cq = [] then 20 + 2 * s.pend.length + s.out.length else 7
  | .rdy .again => if s.ready = [] then 19 + 2 * s.pend.length + s.out.length else 4
  | .cq .again => if s.ready = [] then 20 + 2 * s.pend.length + s.out.length else 5
  | .start => 0

def Less (s' s : St) : Prop := M s' < M s ∨ (M s' = M s ∧ R s' < R s)

theorem lsum_range_upd {f : Nat → OPc} {n i : Nat} {b : OPc} (h : i < n) :
    lsum opW (upd f i b) (List.range n) + opW (f i) = lsum opW f (List.range n) + opW b :=
  lsum_upd_in opW f List.nodup_range (by simpa using h)

theorem M_wakeStart (s : St) : M (wakeStart s) ≤ M s + 6 := by
  unfold wakeStart
  split
  · omega
  · simp only [M, List.length_cons]; omega

theorem less_comp {s : St} {t : T} {c : Bool} {r : List T} (hp : s.pc ≠ .start) (h : s.cq = t :: r) (k : Nat) :
    Less (comp { s with cq := r, total := k } t c) s := by
  left
  cases t with
  | wake =>
    simp only [comp, wakeStart]
    split
    · simp only [M, h, lsum, cqW, id]; omega
    · simp only [M, h, lsum, cqW, id, List.length_cons]; omega
  | op i => simp only [comp, finOp, M, h, lsum, cqW, id]; omega

theorem less_drv {s s' : St} (hs : drv s = some s') : Less s' s := by
  cases hpc : s.pc with
  | idle => simp [drv, hpc] at hs
  | enter => simp [drv, hpc] at hs
  | start =>
    simp only [drv, hpc] at hs
    left
    split at hs
    · cases hs; simp [M, pcW, hpc]
    · cases hs
      have := M_wakeStart { s with pc := .idle }
      simp only [wakeStart] at this ⊢
      split
      · simp [M, pcW, hpc]
      · simp [M, pcW, hpc]; omega
  | pop k =>
    simp only [drv, hpc] at hs
    cases hs
    rcases hr : s.req with _ | ⟨j, r⟩
    · cases k <;> simp [Less, afterPop, M, pcW, R, hpc, hr] <;> omega
    · left
      cases k <;> simp [afterPop, M, pcW, hpc, hr] <;> omega
  | cq k =>
    simp only [drv, hpc] at hs
    rcases hq : s.cq with _ | ⟨t, r⟩ <;> simp only [hq] at hs
    · cases hs
      right
      refine ⟨by simp only [M, pcW, hpc, hq], ?_⟩
      cases k
      all_goals simp only [R, hpc, hq, if_true]
      case again => split <;> omega
      all_goals omega
    · cases hs
      have := less_comp (s := s) (c := false) (by simp [hpc]) hq (s.total - 1)
      simpa only [hpc] using this
  | rdy k =>
    simp only [drv, hpc] at hs
    rcases hq : s.ready with _ | ⟨t, r⟩ <;> simp only [hq] at hs
    · cases hs
      right
      refine ⟨by cases k <;> simp only [afterComplete, M, pcW, hpc, hq] <;> simp, ?_⟩
      cases k
      all_goals simp only [afterComplete, R, hpc, hq, if_true]
      all_goals omega
    · cases hs
      left
      simp [finOp, M, pcW, hpc, hq]
  | sub f =>
    simp only [drv, hpc] at hs
    rcases hq : s.tasks with _ | ⟨t, r⟩ <;> simp only [hq] at hs
    · cases hs
      right
      cases f <;> simp [M, pcW, R, hpc, hq] 
    · split at hs
      · cases hs
        unfold subOne
        split
        · cases t <;> simp_all [isReady]
          left
          simp [M, pcW, hq, ids]; omega
        · split
          · cases t with
            | wake =>
              simp only [comp, wakeStart]
              split
              · left; simp [M, pcW, hpc, hq]
              · right
                cases f <;> simp [M, pcW, R, hpc, hq] <;> omega
            | op i => left; simp [comp, finOp, M, pcW, hpc, hq]
          · left; simp [M, pcW, hpc, hq]; omega
      · cases hs
        right
        cases f <;> simp [M, pcW, R, hpc, hq]
  | sub2 f =>
    simp only [drv, hpc] at hs
    rcases hq : s.tasks with _ | ⟨t, r⟩ <;> simp only [hq] at hs
    · cases f
      · simp only [Bool.false_eq_true, if_false] at hs
        cases hs
        by_cases hr : s.ready = []
        · simp only [hr, if_true, Less, M, pcW, R, hpc, hq, List.length_nil]
          simp; omega
        · simp only [hr, if_false, Less, M, pcW, R, hpc, hq, List.length_nil]
          simp; omega
      · simp only [if_true] at hs
        cases hs
        simp only [Less, M, pcW, R, hpc, hq, List.length_nil]
        simp; omega
    · split at hs
      · cases hs
        cases t with
        | wake => simp_all [isReady]
        | op i => left; simp [M, pcW, hpc, hq, ids]; omega
      · cases hs
        cases f <;> simp [Less, M, pcW, R, hpc, hq] <;> omega
  | rd =>
    simp only [drv, hpc] at hs
    cases hs
    simp [Less, M, pcW, R, hpc]; omega
  | test =>
    simp only [drv, hpc] at hs
    cases hs
    right
    split
    all_goals refine ⟨by simp only [M, pcW, hpc], ?_⟩
    all_goals simp only [R, hpc]; omega
  | chk =>
    simp only [drv, hpc] at hs
    split at hs <;> cases hs <;> right <;> simp [M, pcW, R, hpc] <;> omega
  | wait =>
    simp only [drv, hpc] at hs
    split at hs
    · cases hs
    · cases hs
      right
      simp_all [M, R, pcW]
  | ex =>
    simp only [drv, hpc] at hs
    cases hs
    right
    split
    all_goals refine ⟨by simp only [M, pcW, hpc], ?_⟩
    all_goals simp only [R, hpc]; omega
  | cls =>
    simp only [drv, hpc] at hs
    split at hs
    · cases hs; right; simp [M, pcW, R, hpc]
    · cases hs
  | ret =>
    simp only [drv, hpc] at hs
    cases hs; right; simp [M, pcW, R, hpc]

theorem less_step {s s' : St} {a : Act} (ha : internal a = true) (hs : step s a = some s') : Less s' s := by
  cases a with
  | drv => exact less_drv hs
  | enter k =>
    simp only [step] at hs
    split at hs
    · rename_i hc
      obtain ⟨hp, hk, hk2⟩ := hc
      cases hs
      rcases hk2 with hk2 | hk2
      · left
        by_cases hz : k = s.sq.length
        · simp only [M, hp, List.length_append, List.length_drop, List.length_take, if_pos hz, pcW]
          omega
        · simp only [M, hp, List.length_append, List.length_drop, List.length_take, if_neg hz, pcW]
          omega
      · right
        have hk0 : k = 0 := by simp [hk2] at hk; exact hk
        subst hk0
        simp [M, pcW, R, hp, hk2]
    · cases hs
  | kop i =>
    simp only [step] at hs
    split at hs
    · rename_i hc
      cases hs
      left
      have := List.length_erase_of_mem hc
      have := List.length_pos_of_mem hc
      simp only [M, lsum_append, lsum, cqW, id]; omega
    · cases hs
  | kwake =>
    simp only [step] at hs
    split at hs
    · rename_i hc
      cases hs
      left
      have := List.length_erase_of_mem hc.1
      have := List.length_pos_of_mem hc.1
      simp only [M, lsum_append, lsum, cqW, id, hc.2, efdW]; omega
    · cases hs
  | push i =>
    simp only [step] at hs
    split at hs
    · rename_i hc
      cases hs
      left
      have := lsum_range_upd (f := s.opc) (b := .pushed) hc.1
      simp only [hc.2, opW] at this
      simp only [M, List.length_cons]; omega
    · cases hs
  | dec i =>
    simp only [step] at hs
    split at hs
    · rename_i hc
      cases hs
      left
      have := lsum_range_upd (f := s.opc) (b := .wk) hc.1
      simp only [hc.2, opW] at this
      simp only [M]; omega
    · cases hs
  | wakeOp i =>
    simp only [step] at hs
    split at hs
    · rename_i hc
      cases hs
      left
      have := lsum_range_upd (f := s.opc) (b := .ret) hc.1
      simp only [hc.2, opW] at this
      have := efdW_le s.efd
      simp only [M, efdW]; omega
    · cases hs
  | wakeStop =>
    simp only [step] at hs
    split at hs
    · cases hs
      left
      have := efdW_le s.efd
      simp only [M, efdW]; omega
    · cases hs
  | wakeFin =>
    simp only [step] at hs
    split at hs
    · cases hs
      left
      have := efdW_le s.efd
      simp only [M, efdW]; omega
    · cases hs
  | _ => simp [internal] at ha

theorem less_wf : WellFounded Less := by
  have : WellFounded (Prod.Lex (fun a b : Nat => a < b) (fun a b : Nat => a < b)) :=
    (Prod.lex ⟨_, Nat.lt_wfRel.wf⟩ ⟨_, Nat.lt_wfRel.wf⟩).wf
  refine Subrelation.wf (r := InvImage (Prod.Lex (· < ·) (· < ·)) fun s => (M s, R s)) ?_ (InvImage.wf _ this)
  intro x y h
  rcases h with h | ⟨h1, h2⟩
  · exact Prod.Lex.left _ _ h
  · show Prod.Lex _ _ (M x, R x) (M y, R y)
    rw [h1]; exact Prod.Lex.right _ h2

end Verif.Uring
