import Verif.Uring.InvD
namespace Verif.Uring
set_option maxHeartbeats 4000000

theorem invD_chk {s s' : St} (h : InvD s) (hpc : s.pc = .chk) (hs : drv s = some s') : InvD s' := by
  have ho := invO_drv h.o hs
  have h2 := h.cls; have h3 := h.len; have h4 := h.nw; have h5 := h.mxb; have h6 := h.sqb; have h7 := h.capb
  have h8 := h.loc; have h9 := h.full; have h10 := h.sub2; have h11 := h.outm; have h12 := h.outp; have h13 := h.rdy
  have h14 := h.pend1; have h15 := h.pend2; have h16 := h.ent; have h17 := h.exi; have h18 := h.fin
  have h19 := h.fin2; have h20 := h.finq; have h21 := h.fsub; have h22 := h.fr; have h23 := h.st
  have h24 := h.cw; have h25 := h.cw1; have h26 := h.stp; have h27 := h.waitq; have h28 := h.brk; have h29 := h.ret
  have h30 := h.tok; have h31 := h.stok; have h32 := h.bad; have h33 := h.lost; have h34 := h.o.tk; have h35 := h.caps
  simp only [hpc, inSub, noPend, hasReady, exiting, final, willPop, Bool.false_eq_true, reduceCtorEq, false_imp_iff,
    true_imp_iff, false_or, or_false, true_or, or_true, ne_eq, not_false_eq_true, and_true, and_false, false_and, true_and,
    implies_true, forall_const, Pc.sub.injEq, Pc.sub2.injEq, Pc.pop.injEq, forall_eq', forall_eq, imp_false,
    Bool.not_eq_true] at h2 h7 h8 h9 h10 h12 h13 h14 h15 h16 h17 h18 h19 h20 h21 h22 h23 h25 h26 h27 h29 h30 h34
  simp only [drv, hpc] at hs
  split at hs <;> cases hs
  all_goals constructor
  all_goals first
    | exact ho | exact h.caps | exact h.infl | assumption
    | (intro hx1 hx2 hx3; exact h.cw1 hx1 (by rw [hpc]; simp) hx3)
    | (rename_i hq; intro _; refine Classical.byContradiction fun hx => ?_; have := h15 hx; omega)
    | (simp_all [inSub, noPend, hasReady, exiting, final, willPop]; done)
    | (simp_all [inSub, noPend, hasReady, exiting, final, willPop]; omega)
    | skip
  case isTrue.refl.exi =>
    rename_i hq
    intro _
    refine ⟨by simp only; omega, fun hx => ?_⟩
    have := h28 hx
    rcases hq with hq | hq
    · exact hq
    · simp_all
  case isFalse.refl.ent =>
    rename_i hq
    intro _
    simp only
    omega

theorem invD_test {s s' : St} (h : InvD s) (hpc : s.pc = .test) (hs : drv s = some s') : InvD s' := by
  have ho := invO_drv h.o hs
  have h2 := h.cls; have h3 := h.len; have h4 := h.nw; have h5 := h.mxb; have h6 := h.sqb; have h7 := h.capb
  have h8 := h.loc; have h9 := h.full; have h10 := h.sub2; have h11 := h.outm; have h12 := h.outp; have h13 := h.rdy
  have h14 := h.pend1; have h15 := h.pend2; have h16 := h.ent; have h17 := h.exi; have h18 := h.fin
  have h19 := h.fin2; have h20 := h.finq; have h21 := h.fsub; have h22 := h.fr; have h23 := h.st
  have h24 := h.cw; have h25 := h.cw1; have h26 := h.stp; have h27 := h.waitq; have h28 := h.brk; have h29 := h.ret
  have h30 := h.tok; have h31 := h.stok; have h32 := h.bad; have h33 := h.lost; have h34 := h.o.tk; have h35 := h.caps
  simp only [hpc, inSub, noPend, hasReady, exiting, final, willPop, Bool.false_eq_true, reduceCtorEq, false_imp_iff,
    true_imp_iff, false_or, or_false, true_or, or_true, ne_eq, not_false_eq_true, and_true, and_false, false_and, true_and,
    implies_true, forall_const, Pc.sub.injEq, Pc.sub2.injEq, Pc.pop.injEq, forall_eq', forall_eq, imp_false,
    Bool.not_eq_true] at h2 h7 h8 h9 h10 h12 h13 h14 h15 h16 h17 h18 h19 h20 h21 h22 h23 h25 h26 h27 h29 h30 h34
  simp only [drv, hpc] at hs
  cases hs
  split
  all_goals constructor
  all_goals first
    | exact ho | exact h.caps | exact h.infl | assumption
    | (intro hx1 hx2 hx3; exact h.cw1 hx1 (by rw [hpc]; simp) hx3)
    | (simp_all [inSub, noPend, hasReady, exiting, final, willPop]; done)
    | (simp_all [inSub, noPend, hasReady, exiting, final, willPop]; omega)
    | skip

theorem invD_ex {s s' : St} (h : InvD s) (hpc : s.pc = .ex) (hs : drv s = some s') : InvD s' := by
  have ho := invO_drv h.o hs
  have h2 := h.cls; have h3 := h.len; have h4 := h.nw; have h5 := h.mxb; have h6 := h.sqb; have h7 := h.capb
  have h8 := h.loc; have h9 := h.full; have h10 := h.sub2; have h11 := h.outm; have h12 := h.outp; have h13 := h.rdy
  have h14 := h.pend1; have h15 := h.pend2; have h16 := h.ent; have h17 := h.exi; have h18 := h.fin
  have h19 := h.fin2; have h20 := h.finq; have h21 := h.fsub; have h22 := h.fr; have h23 := h.st
  have h24 := h.cw; have h25 := h.cw1; have h26 := h.stp; have h27 := h.waitq; have h28 := h.brk; have h29 := h.ret
  have h30 := h.tok; have h31 := h.stok; have h32 := h.bad; have h33 := h.lost; have h34 := h.o.tk; have h35 := h.caps
  simp only [hpc, inSub, noPend, hasReady, exiting, final, willPop, Bool.false_eq_true, reduceCtorEq, false_imp_iff,
    true_imp_iff, false_or, or_false, true_or, or_true, ne_eq, not_false_eq_true, and_true, and_false, false_and, true_and,
    implies_true, forall_const, Pc.sub.injEq, Pc.sub2.injEq, Pc.pop.injEq, forall_eq', forall_eq, imp_false,
    Bool.not_eq_true] at h2 h7 h8 h9 h10 h12 h13 h14 h15 h16 h17 h18 h19 h20 h21 h22 h23 h25 h26 h27 h29 h30 h34
  simp only [drv, hpc] at hs
  cases hs
  split
  all_goals constructor
  all_goals first
    | exact ho | exact h.caps | exact h.infl | assumption
    | (intro hx1 hx2 hx3; exact h.cw1 hx1 (by rw [hpc]; simp) hx3)
    | (simp_all [inSub, noPend, hasReady, exiting, final, willPop]; done)
    | (simp_all [inSub, noPend, hasReady, exiting, final, willPop]; omega)
    | skip
  case refl.isFalse.ret =>
    rename_i hq
    intro _ hb
    have ht := (h17.2 hb)
    have hf : s.fresh = false := by cases hx : s.fresh <;> simp_all
    have hsr : s.stopReq = false := by cases hx : s.stopReq <;> simp_all
    have h1 := h25 hf hsr
    have hl : s.sq.length = 0 ∧ s.ring.length = 0 ∧ s.cq.length = 0 := by omega
    simp only [List.length_eq_zero_iff] at hl
    simp [cW, hl.1, hl.2.1, hl.2.2, h14, h34] at h1

theorem invD_cls {s s' : St} (h : InvD s) (hpc : s.pc = .cls) (hs : drv s = some s') : InvD s' := by
  have ho := invO_drv h.o hs
  have h2 := h.cls; have h3 := h.len; have h4 := h.nw; have h5 := h.mxb; have h6 := h.sqb; have h7 := h.capb
  have h8 := h.loc; have h9 := h.full; have h10 := h.sub2; have h11 := h.outm; have h12 := h.outp; have h13 := h.rdy
  have h14 := h.pend1; have h15 := h.pend2; have h16 := h.ent; have h17 := h.exi; have h18 := h.fin
  have h19 := h.fin2; have h20 := h.finq; have h21 := h.fsub; have h22 := h.fr; have h23 := h.st
  have h24 := h.cw; have h25 := h.cw1; have h26 := h.stp; have h27 := h.waitq; have h28 := h.brk; have h29 := h.ret
  have h30 := h.tok; have h31 := h.stok; have h32 := h.bad; have h33 := h.lost; have h34 := h.o.tk; have h35 := h.caps
  simp only [hpc, inSub, noPend, hasReady, exiting, final, willPop, Bool.false_eq_true, reduceCtorEq, false_imp_iff,
    true_imp_iff, false_or, or_false, true_or, or_true, ne_eq, not_false_eq_true, and_true, and_false, false_and, true_and,
    implies_true, forall_const, Pc.sub.injEq, Pc.sub2.injEq, Pc.pop.injEq, forall_eq', forall_eq, imp_false,
    Bool.not_eq_true] at h2 h7 h8 h9 h10 h12 h13 h14 h15 h16 h17 h18 h19 h20 h21 h22 h23 h25 h26 h27 h29 h30 h34
  simp only [drv, hpc] at hs
  split at hs <;> cases hs
  all_goals constructor
  all_goals first
    | exact ho | exact h.caps | exact h.infl | assumption
    | (intro hx1 hx2 hx3; exact h.cw1 hx1 (by rw [hpc]; simp) hx3)
    | (simp_all [inSub, noPend, hasReady, exiting, final, willPop]; done)
    | (simp_all [inSub, noPend, hasReady, exiting, final, willPop]; omega)
    | skip

theorem invD_ret {s s' : St} (h : InvD s) (hpc : s.pc = .ret) (hs : drv s = some s') : InvD s' := by
  have ho := invO_drv h.o hs
  have h2 := h.cls; have h3 := h.len; have h4 := h.nw; have h5 := h.mxb; have h6 := h.sqb; have h7 := h.capb
  have h8 := h.loc; have h9 := h.full; have h10 := h.sub2; have h11 := h.outm; have h12 := h.outp; have h13 := h.rdy
  have h14 := h.pend1; have h15 := h.pend2; have h16 := h.ent; have h17 := h.exi; have h18 := h.fin
  have h19 := h.fin2; have h20 := h.finq; have h21 := h.fsub; have h22 := h.fr; have h23 := h.st
  have h24 := h.cw; have h25 := h.cw1; have h26 := h.stp; have h27 := h.waitq; have h28 := h.brk; have h29 := h.ret
  have h30 := h.tok; have h31 := h.stok; have h32 := h.bad; have h33 := h.lost; have h34 := h.o.tk; have h35 := h.caps
  simp only [hpc, inSub, noPend, hasReady, exiting, final, willPop, Bool.false_eq_true, reduceCtorEq, false_imp_iff,
    true_imp_iff, false_or, or_false, true_or, or_true, ne_eq, not_false_eq_true, and_true, and_false, false_and, true_and,
    implies_true, forall_const, Pc.sub.injEq, Pc.sub2.injEq, Pc.pop.injEq, forall_eq', forall_eq, imp_false,
    Bool.not_eq_true] at h2 h7 h8 h9 h10 h12 h13 h14 h15 h16 h17 h18 h19 h20 h21 h22 h23 h25 h26 h27 h29 h30 h34
  simp only [drv, hpc] at hs
  cases hs
  all_goals constructor
  all_goals first
    | exact ho | exact h.caps | exact h.infl | assumption
    | (intro hx1 hx2 hx3; exact h.cw1 hx1 (by rw [hpc]; simp) hx3)
    | (simp_all [inSub, noPend, hasReady, exiting, final, willPop]; done)
    | (simp_all [inSub, noPend, hasReady, exiting, final, willPop]; omega)
    | skip

theorem invD_wait {s s' : St} (h : InvD s) (hpc : s.pc = .wait) (hs : drv s = some s') : InvD s' := by
  have ho := invO_drv h.o hs
  have h2 := h.cls; have h3 := h.len; have h4 := h.nw; have h5 := h.mxb; have h6 := h.sqb; have h7 := h.capb
  have h8 := h.loc; have h9 := h.full; have h10 := h.sub2; have h11 := h.outm; have h12 := h.outp; have h13 := h.rdy
  have h14 := h.pend1; have h15 := h.pend2; have h16 := h.ent; have h17 := h.exi; have h18 := h.fin
  have h19 := h.fin2; have h20 := h.finq; have h21 := h.fsub; have h22 := h.fr; have h23 := h.st
  have h24 := h.cw; have h25 := h.cw1; have h26 := h.stp; have h27 := h.waitq; have h28 := h.brk; have h29 := h.ret
  have h30 := h.tok; have h31 := h.stok; have h32 := h.bad; have h33 := h.lost; have h34 := h.o.tk; have h35 := h.caps
  simp only [hpc, inSub, noPend, hasReady, exiting, final, willPop, Bool.false_eq_true, reduceCtorEq, false_imp_iff,
    true_imp_iff, false_or, or_false, true_or, or_true, ne_eq, not_false_eq_true, and_true, and_false, false_and, true_and,
    implies_true, forall_const, Pc.sub.injEq, Pc.sub2.injEq, Pc.pop.injEq, forall_eq', forall_eq, imp_false,
    Bool.not_eq_true] at h2 h7 h8 h9 h10 h12 h13 h14 h15 h16 h17 h18 h19 h20 h21 h22 h23 h25 h26 h27 h29 h30 h34
  simp only [drv, hpc] at hs
  split at hs <;> cases hs
  all_goals constructor
  all_goals first
    | exact ho | exact h.caps | exact h.infl | assumption
    | (intro hx1 hx2 hx3; exact h.cw1 hx1 (by rw [hpc]; simp) hx3)
    | (simp_all [inSub, noPend, hasReady, exiting, final, willPop]; done)
    | (simp_all [inSub, noPend, hasReady, exiting, final, willPop]; omega)
    | skip

end Verif.Uring
