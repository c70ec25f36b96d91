import Verif.Uring.InvD
namespace Verif.Uring
set_option maxHeartbeats 4000000

theorem invD_sub_false {s s' : St} (h : InvD s) (hpc : s.pc = .sub false) (hs : drv s = some s') : InvD s' := by
  have ho := invO_drv h.o hs
  have h2 := h.cls; have h3 := h.len; have h4 := h.nw; have h5 := h.mxb; have h6 := h.sqb; have h7 := h.capb
  have h8 := h.loc; have h9 := h.full; have h10 := h.sub2; have h11 := h.outm; have h12 := h.outp; have h13 := h.rdy
  have h14 := h.pend1; have h15 := h.pend2; have h16 := h.ent; have h17 := h.exi; have h18 := h.fin
  have h19 := h.fin2; have h20 := h.finq; have h21 := h.fsub; have h22 := h.fr; have h23 := h.st
  have h24 := h.cw; have h25 := h.cw1; have h26 := h.stp; have h27 := h.waitq; have h28 := h.brk; have h29 := h.ret
  have h30 := h.tok; have h31 := h.stok; have h32 := h.bad; have h33 := h.lost; have h34 := h.o.tk; have h35 := h.caps
  simp only [hpc, inSub, noPend, hasReady, exiting, final, willPop, Bool.false_eq_true, reduceCtorEq, false_imp_iff,
    true_imp_iff, false_or, or_false, true_or, or_true, ne_eq, not_false_eq_true, and_true, and_false, false_and, true_and,
    implies_true, forall_const, Pc.sub.injEq, Pc.sub2.injEq, Pc.pop.injEq, forall_eq', forall_eq, imp_false,
    Bool.not_eq_true] at h2 h7 h8 h9 h10 h12 h13 h14 h15 h16 h17 h18 h19 h20 h21 h22 h23 h25 h26 h27 h29 h30 h34
  simp only [drv, hpc] at hs
  rcases htk : s.tasks with _ | ⟨_ | j, r⟩ <;> simp only [htk] at hs
  case' cons.wake => split at hs
  case' cons.op => split at hs
  all_goals cases hs
  case' cons.wake.isTrue.refl =>
    simp only [subOne, isReady, isCancel, Bool.false_eq_true, if_false, Bool.not_false, Bool.and_true] at ho ⊢
    by_cases hst : s.stp = true
    all_goals simp only [hst, if_true, if_false, Bool.false_eq_true] at ho ⊢
    all_goals try (have hsr := h26 hst; simp only [comp, wakeStart, hsr, if_true] at ho ⊢)
  case' cons.op.isTrue.refl =>
    cases hk : s.kind j
    all_goals simp only [subOne, isReady, isCancel, ids, hk, decide_true, decide_false, reduceCtorEq, Bool.false_eq_true, if_true, if_false,
      Bool.not_false, Bool.not_true, Bool.and_true, Bool.and_false] at ho ⊢
  case' cons.op.isTrue.refl.io =>
    by_cases hst : s.stp = true
    all_goals simp only [hst, if_true, if_false, Bool.false_eq_true] at ho ⊢
    all_goals try (have hsr := h26 hst; simp only [comp, wakeStart, hsr, if_true] at ho ⊢)
  all_goals try simp only [comp, finOp] at ho ⊢
  all_goals constructor
  all_goals first
    | exact ho | exact h.caps | exact h.infl | assumption
    | (intro hx1 hx2 hx3; exact h.cw1 hx1 (by rw [hpc]; simp) hx3)
    | (intro hx1 hx2 hx3; refine h.stok hx1 hx2 ?_; simp only [cW, cW', List.count_append, count_map_wake, List.count_nil, List.count_cons, List.length_append, List.length_cons, List.length_nil, htk] at hx3 ⊢; simp at hx3 ⊢; omega)
    | (simp only [cW, cW', List.count_append, count_map_wake, List.count_nil, List.count_cons, List.length_append, List.length_cons, List.length_nil] at *; simp_all [inSub, noPend, hasReady, exiting, final, willPop]; done)
    | (simp only [cW, cW', List.count_append, count_map_wake, List.count_nil, List.count_cons, List.length_append, List.length_cons, List.length_nil] at *; simp_all [inSub, noPend, hasReady, exiting, final, willPop]; omega)
    | (simp_all [inSub, noPend, hasReady, exiting, final, willPop]; done)
    | (simp_all [inSub, noPend, hasReady, exiting, final, willPop]; omega)
    | skip

theorem invD_sub_true {s s' : St} (h : InvD s) (hpc : s.pc = .sub true) (hs : drv s = some s') : InvD s' := by
  have ho := invO_drv h.o hs
  have h2 := h.cls; have h3 := h.len; have h4 := h.nw; have h5 := h.mxb; have h6 := h.sqb; have h7 := h.capb
  have h8 := h.loc; have h9 := h.full; have h10 := h.sub2; have h11 := h.outm; have h12 := h.outp; have h13 := h.rdy
  have h14 := h.pend1; have h15 := h.pend2; have h16 := h.ent; have h17 := h.exi; have h18 := h.fin
  have h19 := h.fin2; have h20 := h.finq; have h21 := h.fsub; have h22 := h.fr; have h23 := h.st
  have h24 := h.cw; have h25 := h.cw1; have h26 := h.stp; have h27 := h.waitq; have h28 := h.brk; have h29 := h.ret
  have h30 := h.tok; have h31 := h.stok; have h32 := h.bad; have h33 := h.lost; have h34 := h.o.tk; have h35 := h.caps
  simp only [hpc, inSub, noPend, hasReady, exiting, final, willPop, Bool.false_eq_true, reduceCtorEq, false_imp_iff,
    true_imp_iff, false_or, or_false, true_or, or_true, ne_eq, not_false_eq_true, and_true, and_false, false_and, true_and,
    implies_true, forall_const, Pc.sub.injEq, Pc.sub2.injEq, Pc.pop.injEq, forall_eq', forall_eq, imp_false,
    Bool.not_eq_true] at h2 h7 h8 h9 h10 h12 h13 h14 h15 h16 h17 h18 h19 h20 h21 h22 h23 h25 h26 h27 h29 h30 h34
  simp only [drv, hpc] at hs
  rcases htk : s.tasks with _ | ⟨_ | j, r⟩ <;> simp only [htk] at hs
  case' cons.wake => split at hs
  case' cons.op => split at hs
  all_goals cases hs
  case' cons.wake.isTrue.refl =>
    simp only [subOne, isReady, isCancel, Bool.false_eq_true, if_false, Bool.not_false, Bool.and_true] at ho ⊢
    by_cases hst : s.stp = true
    all_goals simp only [hst, if_true, if_false, Bool.false_eq_true] at ho ⊢
    all_goals try (have hsr := h26 hst; simp only [comp, wakeStart, hsr, if_true] at ho ⊢)
  case' cons.op.isTrue.refl =>
    cases hk : s.kind j
    all_goals simp only [subOne, isReady, isCancel, ids, hk, decide_true, decide_false, reduceCtorEq, Bool.false_eq_true, if_true, if_false,
      Bool.not_false, Bool.not_true, Bool.and_true, Bool.and_false] at ho ⊢
  case' cons.op.isTrue.refl.io =>
    by_cases hst : s.stp = true
    all_goals simp only [hst, if_true, if_false, Bool.false_eq_true] at ho ⊢
    all_goals try (have hsr := h26 hst; simp only [comp, wakeStart, hsr, if_true] at ho ⊢)
  all_goals try simp only [comp, finOp] at ho ⊢
  all_goals constructor
  all_goals first
    | exact ho | exact h.caps | exact h.infl | assumption
    | (intro hx1 hx2 hx3; exact h.cw1 hx1 (by rw [hpc]; simp) hx3)
    | (intro hx1 hx2 hx3; refine h.stok hx1 hx2 ?_; simp only [cW, cW', List.count_append, count_map_wake, List.count_nil, List.count_cons, List.length_append, List.length_cons, List.length_nil, htk] at hx3 ⊢; simp at hx3 ⊢; omega)
    | (simp only [cW, cW', List.count_append, count_map_wake, List.count_nil, List.count_cons, List.length_append, List.length_cons, List.length_nil] at *; simp_all [inSub, noPend, hasReady, exiting, final, willPop]; done)
    | (simp only [cW, cW', List.count_append, count_map_wake, List.count_nil, List.count_cons, List.length_append, List.length_cons, List.length_nil] at *; simp_all [inSub, noPend, hasReady, exiting, final, willPop]; omega)
    | (simp_all [inSub, noPend, hasReady, exiting, final, willPop]; done)
    | (simp_all [inSub, noPend, hasReady, exiting, final, willPop]; omega)
    | skip

theorem invD_sub2_false {s s' : St} (h : InvD s) (hpc : s.pc = .sub2 false) (hs : drv s = some s') : InvD s' := by
  have ho := invO_drv h.o hs
  have h2 := h.cls; have h3 := h.len; have h4 := h.nw; have h5 := h.mxb; have h6 := h.sqb; have h7 := h.capb
  have h8 := h.loc; have h9 := h.full; have h10 := h.sub2; have h11 := h.outm; have h12 := h.outp; have h13 := h.rdy
  have h14 := h.pend1; have h15 := h.pend2; have h16 := h.ent; have h17 := h.exi; have h18 := h.fin
  have h19 := h.fin2; have h20 := h.finq; have h21 := h.fsub; have h22 := h.fr; have h23 := h.st
  have h24 := h.cw; have h25 := h.cw1; have h26 := h.stp; have h27 := h.waitq; have h28 := h.brk; have h29 := h.ret
  have h30 := h.tok; have h31 := h.stok; have h32 := h.bad; have h33 := h.lost; have h34 := h.o.tk; have h35 := h.caps
  simp only [hpc, inSub, noPend, hasReady, exiting, final, willPop, Bool.false_eq_true, reduceCtorEq, false_imp_iff,
    true_imp_iff, false_or, or_false, true_or, or_true, ne_eq, not_false_eq_true, and_true, and_false, false_and, true_and,
    implies_true, forall_const, Pc.sub.injEq, Pc.sub2.injEq, Pc.pop.injEq, forall_eq', forall_eq, imp_false,
    Bool.not_eq_true] at h2 h7 h8 h9 h10 h12 h13 h14 h15 h16 h17 h18 h19 h20 h21 h22 h23 h25 h26 h27 h29 h30 h34
  simp only [drv, hpc] at hs
  rcases htk : s.tasks with _ | ⟨_ | j, r⟩ <;> simp only [htk] at hs
  case' cons.op => split at hs
  all_goals try simp only [isReady] at hs
  all_goals try simp only [if_true, if_false, Bool.false_eq_true] at hs
  all_goals cases hs
  case' nil.refl => try split
  all_goals constructor
  all_goals first
    | exact ho | exact h.caps | exact h.infl | assumption
    | (intro hx1 hx2 hx3; exact h.cw1 hx1 (by rw [hpc]; simp) hx3)
    | (intro hx1 hx2 hx3; refine h.stok hx1 hx2 ?_; simp only [cW, cW', List.count_append, count_map_wake, List.count_nil, List.count_cons, List.length_append, List.length_cons, List.length_nil, htk] at hx3 ⊢; simp at hx3 ⊢; omega)
    | (simp only [cW, cW', List.count_append, count_map_wake, List.count_nil, List.count_cons, List.length_append, List.length_cons, List.length_nil] at *; simp_all [inSub, noPend, hasReady, exiting, final, willPop]; done)
    | (simp only [cW, cW', List.count_append, count_map_wake, List.count_nil, List.count_cons, List.length_append, List.length_cons, List.length_nil] at *; simp_all [inSub, noPend, hasReady, exiting, final, willPop]; omega)
    | (simp_all [inSub, noPend, hasReady, exiting, final, willPop]; done)
    | (simp_all [inSub, noPend, hasReady, exiting, final, willPop]; omega)
    | skip

theorem invD_sub2_true {s s' : St} (h : InvD s) (hpc : s.pc = .sub2 true) (hs : drv s = some s') (hl : s'.leak = 0) : InvD s' := by
  have ho := invO_drv h.o hs
  have h2 := h.cls; have h3 := h.len; have h4 := h.nw; have h5 := h.mxb; have h6 := h.sqb; have h7 := h.capb
  have h8 := h.loc; have h9 := h.full; have h10 := h.sub2; have h11 := h.outm; have h12 := h.outp; have h13 := h.rdy
  have h14 := h.pend1; have h15 := h.pend2; have h16 := h.ent; have h17 := h.exi; have h18 := h.fin
  have h19 := h.fin2; have h20 := h.finq; have h21 := h.fsub; have h22 := h.fr; have h23 := h.st
  have h24 := h.cw; have h25 := h.cw1; have h26 := h.stp; have h27 := h.waitq; have h28 := h.brk; have h29 := h.ret
  have h30 := h.tok; have h31 := h.stok; have h32 := h.bad; have h33 := h.lost; have h34 := h.o.tk; have h35 := h.caps
  simp only [hpc, inSub, noPend, hasReady, exiting, final, willPop, Bool.false_eq_true, reduceCtorEq, false_imp_iff,
    true_imp_iff, false_or, or_false, true_or, or_true, ne_eq, not_false_eq_true, and_true, and_false, false_and, true_and,
    implies_true, forall_const, Pc.sub.injEq, Pc.sub2.injEq, Pc.pop.injEq, forall_eq', forall_eq, imp_false,
    Bool.not_eq_true] at h2 h7 h8 h9 h10 h12 h13 h14 h15 h16 h17 h18 h19 h20 h21 h22 h23 h25 h26 h27 h29 h30 h34
  simp only [drv, hpc] at hs
  rcases htk : s.tasks with _ | ⟨_ | j, r⟩ <;> simp only [htk] at hs
  case' cons.op => split at hs
  all_goals try simp only [isReady] at hs
  all_goals try simp only [if_true, if_false, Bool.false_eq_true] at hs
  all_goals cases hs
  case' nil.refl => simp only at hl
  all_goals constructor
  all_goals first
    | exact ho | exact h.caps | exact h.infl | assumption
    | (intro hx1 hx2 hx3; exact h.cw1 hx1 (by rw [hpc]; simp) hx3)
    | (intro hx1 hx2 hx3; refine h.stok hx1 hx2 ?_; simp only [cW, cW', List.count_append, count_map_wake, List.count_nil, List.count_cons, List.length_append, List.length_cons, List.length_nil, htk] at hx3 ⊢; simp at hx3 ⊢; omega)
    | (simp only [cW, cW', List.count_append, count_map_wake, List.count_nil, List.count_cons, List.length_append, List.length_cons, List.length_nil] at *; simp_all [inSub, noPend, hasReady, exiting, final, willPop]; done)
    | (simp only [cW, cW', List.count_append, count_map_wake, List.count_nil, List.count_cons, List.length_append, List.length_cons, List.length_nil] at *; simp_all [inSub, noPend, hasReady, exiting, final, willPop]; omega)
    | (simp_all [inSub, noPend, hasReady, exiting, final, willPop]; done)
    | (simp_all [inSub, noPend, hasReady, exiting, final, willPop]; omega)
    | skip
  case nil.refl.lost =>
    have hn : s.nsub = 0 := by omega
    have h21' := h21 hn
    have hout : s.out = [] := by
      by_cases hq : s.out = []
      · exact hq
      · have := h11 hq; omega
    simp [h33, h14, hout]

end Verif.Uring
