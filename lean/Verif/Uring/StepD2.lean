import Verif.Uring.InvD
namespace Verif.Uring
set_option maxHeartbeats 4000000

theorem invD_start {s s' : St} (h : InvD s) (hpc : s.pc = .start) (hs : drv s = some s') : InvD s' := by
  have ho := invO_drv h.o hs
  have h2 := h.cls; have h3 := h.len; have h4 := h.nw; have h5 := h.mxb; have h6 := h.sqb; have h7 := h.capb
  have h8 := h.loc; have h9 := h.full; have h10 := h.sub2; have h11 := h.outm; have h12 := h.outp; have h13 := h.rdy
  have h14 := h.pend1; have h15 := h.pend2; have h16 := h.ent; have h17 := h.exi; have h18 := h.fin
  have h19 := h.fin2; have h20 := h.finq; have h21 := h.fsub; have h22 := h.fr; have h23 := h.st
  have h24 := h.cw; have h25 := h.cw1; have h26 := h.stp; have h27 := h.waitq; have h28 := h.brk; have h29 := h.ret
  have h30 := h.tok; have h31 := h.stok; have h32 := h.bad; have h33 := h.lost; have h34 := h.o.tk; have h35 := h.caps
  simp only [hpc, inSub, noPend, hasReady, exiting, final, willPop, Bool.false_eq_true, reduceCtorEq, false_imp_iff,
    true_imp_iff, false_or, or_false, true_or, or_true, ne_eq, not_false_eq_true, and_true, and_false, false_and, true_and,
    implies_true, forall_const, Pc.sub.injEq, Pc.sub2.injEq, Pc.pop.injEq, forall_eq', forall_eq, imp_false,
    Bool.not_eq_true] at h2 h7 h8 h9 h10 h12 h13 h14 h15 h16 h17 h18 h19 h20 h21 h22 h23 h25 h26 h27 h29 h30 h34
  simp only [drv, hpc] at hs
  split at hs <;> cases hs
  · simp_all
  by_cases hx : s.stopReq = true
  all_goals simp only [wakeStart, hx, if_true, if_false, Bool.false_eq_true] at ho ⊢
  all_goals constructor
  all_goals first
    | exact ho | exact h.caps | exact h.infl | assumption
    | (intro hx1 hx2 hx3; exact h.cw1 hx1 (by rw [hpc]; simp) hx3)
    | (simp only [cW, cW', List.count_append, count_map_wake, List.count_nil, List.count_cons] at *; simp_all [inSub, noPend, hasReady, exiting, final, willPop]; done)
    | (simp only [cW, cW', List.count_append, count_map_wake, List.count_nil, List.count_cons] at *; simp_all [inSub, noPend, hasReady, exiting, final, willPop]; omega)
    | (simp_all [inSub, noPend, hasReady, exiting, final, willPop]; done)
    | (simp_all [inSub, noPend, hasReady, exiting, final, willPop]; omega)
    | skip

theorem invD_pop_init {s s' : St} (h : InvD s) (hpc : s.pc = .pop .init) (hs : drv s = some s') : InvD s' := by
  have ho := invO_drv h.o hs
  have h2 := h.cls; have h3 := h.len; have h4 := h.nw; have h5 := h.mxb; have h6 := h.sqb; have h7 := h.capb
  have h8 := h.loc; have h9 := h.full; have h10 := h.sub2; have h11 := h.outm; have h12 := h.outp; have h13 := h.rdy
  have h14 := h.pend1; have h15 := h.pend2; have h16 := h.ent; have h17 := h.exi; have h18 := h.fin
  have h19 := h.fin2; have h20 := h.finq; have h21 := h.fsub; have h22 := h.fr; have h23 := h.st
  have h24 := h.cw; have h25 := h.cw1; have h26 := h.stp; have h27 := h.waitq; have h28 := h.brk; have h29 := h.ret
  have h30 := h.tok; have h31 := h.stok; have h32 := h.bad; have h33 := h.lost; have h34 := h.o.tk; have h35 := h.caps
  simp only [hpc, inSub, noPend, hasReady, exiting, final, willPop, Bool.false_eq_true, reduceCtorEq, false_imp_iff,
    true_imp_iff, false_or, or_false, true_or, or_true, ne_eq, not_false_eq_true, and_true, and_false, false_and, true_and,
    implies_true, forall_const, Pc.sub.injEq, Pc.sub2.injEq, Pc.pop.injEq, forall_eq', forall_eq, imp_false,
    Bool.not_eq_true] at h2 h7 h8 h9 h10 h12 h13 h14 h15 h16 h17 h18 h19 h20 h21 h22 h23 h25 h26 h27 h29 h30 h34
  simp only [drv, hpc] at hs
  cases hs
  simp only [afterPop] at ho ⊢
  all_goals constructor
  all_goals first
    | exact ho | exact h.caps | exact h.infl | assumption
    | (intro hx1 hx2 hx3; exact h.cw1 hx1 (by rw [hpc]; simp) hx3)
    | (simp only [cW, cW', List.count_append, count_map_wake, List.count_nil, List.count_cons] at *; simp_all [inSub, noPend, hasReady, exiting, final, willPop]; done)
    | (simp only [cW, cW', List.count_append, count_map_wake, List.count_nil, List.count_cons] at *; simp_all [inSub, noPend, hasReady, exiting, final, willPop]; omega)
    | (simp_all [inSub, noPend, hasReady, exiting, final, willPop]; done)
    | (simp_all [inSub, noPend, hasReady, exiting, final, willPop]; omega)
    | skip

theorem invD_pop_some {s s' : St} (h : InvD s) (hpc : s.pc = .pop .some) (hs : drv s = some s') : InvD s' := by
  have ho := invO_drv h.o hs
  have h2 := h.cls; have h3 := h.len; have h4 := h.nw; have h5 := h.mxb; have h6 := h.sqb; have h7 := h.capb
  have h8 := h.loc; have h9 := h.full; have h10 := h.sub2; have h11 := h.outm; have h12 := h.outp; have h13 := h.rdy
  have h14 := h.pend1; have h15 := h.pend2; have h16 := h.ent; have h17 := h.exi; have h18 := h.fin
  have h19 := h.fin2; have h20 := h.finq; have h21 := h.fsub; have h22 := h.fr; have h23 := h.st
  have h24 := h.cw; have h25 := h.cw1; have h26 := h.stp; have h27 := h.waitq; have h28 := h.brk; have h29 := h.ret
  have h30 := h.tok; have h31 := h.stok; have h32 := h.bad; have h33 := h.lost; have h34 := h.o.tk; have h35 := h.caps
  simp only [hpc, inSub, noPend, hasReady, exiting, final, willPop, Bool.false_eq_true, reduceCtorEq, false_imp_iff,
    true_imp_iff, false_or, or_false, true_or, or_true, ne_eq, not_false_eq_true, and_true, and_false, false_and, true_and,
    implies_true, forall_const, Pc.sub.injEq, Pc.sub2.injEq, Pc.pop.injEq, forall_eq', forall_eq, imp_false,
    Bool.not_eq_true] at h2 h7 h8 h9 h10 h12 h13 h14 h15 h16 h17 h18 h19 h20 h21 h22 h23 h25 h26 h27 h29 h30 h34
  simp only [drv, hpc] at hs
  cases hs
  simp only [afterPop] at ho ⊢
  all_goals constructor
  all_goals first
    | exact ho | exact h.caps | exact h.infl | assumption
    | (intro hx1 hx2 hx3; exact h.cw1 hx1 (by rw [hpc]; simp) hx3)
    | (simp only [cW, cW', List.count_append, count_map_wake, List.count_nil, List.count_cons] at *; simp_all [inSub, noPend, hasReady, exiting, final, willPop]; done)
    | (simp only [cW, cW', List.count_append, count_map_wake, List.count_nil, List.count_cons] at *; simp_all [inSub, noPend, hasReady, exiting, final, willPop]; omega)
    | (simp_all [inSub, noPend, hasReady, exiting, final, willPop]; done)
    | (simp_all [inSub, noPend, hasReady, exiting, final, willPop]; omega)
    | skip

theorem invD_pop_after {s s' : St} (h : InvD s) (hpc : s.pc = .pop .after) (hs : drv s = some s') : InvD s' := by
  have ho := invO_drv h.o hs
  have h2 := h.cls; have h3 := h.len; have h4 := h.nw; have h5 := h.mxb; have h6 := h.sqb; have h7 := h.capb
  have h8 := h.loc; have h9 := h.full; have h10 := h.sub2; have h11 := h.outm; have h12 := h.outp; have h13 := h.rdy
  have h14 := h.pend1; have h15 := h.pend2; have h16 := h.ent; have h17 := h.exi; have h18 := h.fin
  have h19 := h.fin2; have h20 := h.finq; have h21 := h.fsub; have h22 := h.fr; have h23 := h.st
  have h24 := h.cw; have h25 := h.cw1; have h26 := h.stp; have h27 := h.waitq; have h28 := h.brk; have h29 := h.ret
  have h30 := h.tok; have h31 := h.stok; have h32 := h.bad; have h33 := h.lost; have h34 := h.o.tk; have h35 := h.caps
  simp only [hpc, inSub, noPend, hasReady, exiting, final, willPop, Bool.false_eq_true, reduceCtorEq, false_imp_iff,
    true_imp_iff, false_or, or_false, true_or, or_true, ne_eq, not_false_eq_true, and_true, and_false, false_and, true_and,
    implies_true, forall_const, Pc.sub.injEq, Pc.sub2.injEq, Pc.pop.injEq, forall_eq', forall_eq, imp_false,
    Bool.not_eq_true] at h2 h7 h8 h9 h10 h12 h13 h14 h15 h16 h17 h18 h19 h20 h21 h22 h23 h25 h26 h27 h29 h30 h34
  simp only [drv, hpc] at hs
  cases hs
  simp only [afterPop] at ho ⊢
  all_goals constructor
  all_goals first
    | exact ho | exact h.caps | exact h.infl | assumption
    | (intro hx1 hx2 hx3; exact h.cw1 hx1 (by rw [hpc]; simp) hx3)
    | (simp only [cW, cW', List.count_append, count_map_wake, List.count_nil, List.count_cons] at *; simp_all [inSub, noPend, hasReady, exiting, final, willPop]; done)
    | (simp only [cW, cW', List.count_append, count_map_wake, List.count_nil, List.count_cons] at *; simp_all [inSub, noPend, hasReady, exiting, final, willPop]; omega)
    | (simp_all [inSub, noPend, hasReady, exiting, final, willPop]; done)
    | (simp_all [inSub, noPend, hasReady, exiting, final, willPop]; omega)
    | skip

theorem invD_pop_last {s s' : St} (h : InvD s) (hpc : s.pc = .pop .last) (hs : drv s = some s') : InvD s' := by
  have ho := invO_drv h.o hs
  have h2 := h.cls; have h3 := h.len; have h4 := h.nw; have h5 := h.mxb; have h6 := h.sqb; have h7 := h.capb
  have h8 := h.loc; have h9 := h.full; have h10 := h.sub2; have h11 := h.outm; have h12 := h.outp; have h13 := h.rdy
  have h14 := h.pend1; have h15 := h.pend2; have h16 := h.ent; have h17 := h.exi; have h18 := h.fin
  have h19 := h.fin2; have h20 := h.finq; have h21 := h.fsub; have h22 := h.fr; have h23 := h.st
  have h24 := h.cw; have h25 := h.cw1; have h26 := h.stp; have h27 := h.waitq; have h28 := h.brk; have h29 := h.ret
  have h30 := h.tok; have h31 := h.stok; have h32 := h.bad; have h33 := h.lost; have h34 := h.o.tk; have h35 := h.caps
  simp only [hpc, inSub, noPend, hasReady, exiting, final, willPop, Bool.false_eq_true, reduceCtorEq, false_imp_iff,
    true_imp_iff, false_or, or_false, true_or, or_true, ne_eq, not_false_eq_true, and_true, and_false, false_and, true_and,
    implies_true, forall_const, Pc.sub.injEq, Pc.sub2.injEq, Pc.pop.injEq, forall_eq', forall_eq, imp_false,
    Bool.not_eq_true] at h2 h7 h8 h9 h10 h12 h13 h14 h15 h16 h17 h18 h19 h20 h21 h22 h23 h25 h26 h27 h29 h30 h34
  simp only [drv, hpc] at hs
  cases hs
  simp only [afterPop] at ho ⊢
  all_goals constructor
  all_goals first
    | exact ho | exact h.caps | exact h.infl | assumption
    | (intro hx1 hx2 hx3; exact h.cw1 hx1 (by rw [hpc]; simp) hx3)
    | (simp only [cW, cW', List.count_append, count_map_wake, List.count_nil, List.count_cons] at *; simp_all [inSub, noPend, hasReady, exiting, final, willPop]; done)
    | (simp only [cW, cW', List.count_append, count_map_wake, List.count_nil, List.count_cons] at *; simp_all [inSub, noPend, hasReady, exiting, final, willPop]; omega)
    | (simp_all [inSub, noPend, hasReady, exiting, final, willPop]; done)
    | (simp_all [inSub, noPend, hasReady, exiting, final, willPop]; omega)
    | skip

theorem invD_rd {s s' : St} (h : InvD s) (hpc : s.pc = .rd) (hs : drv s = some s') : InvD s' := by
  have ho := invO_drv h.o hs
  have h2 := h.cls; have h3 := h.len; have h4 := h.nw; have h5 := h.mxb; have h6 := h.sqb; have h7 := h.capb
  have h8 := h.loc; have h9 := h.full; have h10 := h.sub2; have h11 := h.outm; have h12 := h.outp; have h13 := h.rdy
  have h14 := h.pend1; have h15 := h.pend2; have h16 := h.ent; have h17 := h.exi; have h18 := h.fin
  have h19 := h.fin2; have h20 := h.finq; have h21 := h.fsub; have h22 := h.fr; have h23 := h.st
  have h24 := h.cw; have h25 := h.cw1; have h26 := h.stp; have h27 := h.waitq; have h28 := h.brk; have h29 := h.ret
  have h30 := h.tok; have h31 := h.stok; have h32 := h.bad; have h33 := h.lost; have h34 := h.o.tk; have h35 := h.caps
  simp only [hpc, inSub, noPend, hasReady, exiting, final, willPop, Bool.false_eq_true, reduceCtorEq, false_imp_iff,
    true_imp_iff, false_or, or_false, true_or, or_true, ne_eq, not_false_eq_true, and_true, and_false, false_and, true_and,
    implies_true, forall_const, Pc.sub.injEq, Pc.sub2.injEq, Pc.pop.injEq, forall_eq', forall_eq, imp_false,
    Bool.not_eq_true] at h2 h7 h8 h9 h10 h12 h13 h14 h15 h16 h17 h18 h19 h20 h21 h22 h23 h25 h26 h27 h29 h30 h34
  simp only [drv, hpc] at hs
  cases hs
  all_goals constructor
  all_goals first
    | exact ho | exact h.caps | exact h.infl | assumption
    | (intro hx1 hx2 hx3; exact h.cw1 hx1 (by rw [hpc]; simp) hx3)
    | (simp only [cW, cW', List.count_append, count_map_wake, List.count_nil, List.count_cons] at *; simp_all [inSub, noPend, hasReady, exiting, final, willPop]; done)
    | (simp only [cW, cW', List.count_append, count_map_wake, List.count_nil, List.count_cons] at *; simp_all [inSub, noPend, hasReady, exiting, final, willPop]; omega)
    | (simp_all [inSub, noPend, hasReady, exiting, final, willPop]; done)
    | (simp_all [inSub, noPend, hasReady, exiting, final, willPop]; omega)
    | skip

end Verif.Uring
