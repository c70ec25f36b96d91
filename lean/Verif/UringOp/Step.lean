import Verif.UringOp.Inv
namespace Verif.UringOp
set_option maxHeartbeats 4000000

theorem inv_start {s s' : St} (h : Inv s) (hs : step s .start = some s') : Inv s' := by
  have e1 := h.op; have e2 := h.tok; have e3 := h.once; have e4 := h.zero; have e5 := h.all; have e6 := h.offC
  have e7 := h.offR; have e8 := h.pre; have e9 := h.pre2; have e10 := h.pre3; have e11 := h.onC; have e12 := h.onR
  have e13 := h.cap; have e14 := h.flC; have e15 := h.flR; have e16 := h.psh; have e17 := h.pshW; have e18 := h.pshC
  have e19 := h.pshR; have e20 := h.pfl; have e21 := h.dbl; have e22 := h.uaf; have e23 := h.cn; have e24 := h.cs
  have e25 := h.st; have e26 := h.dm
  simp only [e1, step, Bool.false_eq_true, if_false] at hs
  skip
  split at hs
  · rename_i hm
    skip
    cases hs
    simp only [hm, mN, dN, fN, dS, pN, sp, used, isWake, cleared1, cleared2, Cb.onDrv, reduceCtorEq, false_or, or_false, true_or, or_true, true_and, and_true, false_and, and_false, false_imp_iff, true_imp_iff, Bool.false_eq_true, ne_eq, not_false_eq_true, not_true_eq_false, implies_true, forall_const, Nat.add_zero, Nat.zero_add, Dr.dec.injEq, Dr.rstC.injEq, Dr.rstR.injEq, Dr.fire.injEq] at e1 e2 e3 e4 e5 e6 e7 e8 e9 e10 e11 e12 e13 e14 e15 e16 e17 e18 e19 e20 e21 e22 e23 e24 e25 e26
    all_goals constructor
    all_goals simp only [upd_same, upd_other, hm, mN, dN, fN, dS, pN, sp, used, isWake, cleared1, cleared2, Cb.onDrv, reduceCtorEq, false_or, or_false, true_or, or_true, true_and, and_true, false_and, and_false, false_imp_iff, true_imp_iff, Bool.false_eq_true, ne_eq, not_false_eq_true, not_true_eq_false, implies_true, forall_const, Nat.add_zero, Nat.zero_add, Dr.dec.injEq, Dr.rstC.injEq, Dr.rstR.injEq, Dr.fire.injEq]
    all_goals first
      | assumption
      | omega
      | (clear h; grind)
      | (simp_all; done)
      | (simp_all; omega)
      | skip
  · cases hs

theorem inv_sub0 {s s' : St} (h : Inv s) (hs : step s .sub0 = some s') : Inv s' := by
  have e1 := h.op; have e2 := h.tok; have e3 := h.once; have e4 := h.zero; have e5 := h.all; have e6 := h.offC
  have e7 := h.offR; have e8 := h.pre; have e9 := h.pre2; have e10 := h.pre3; have e11 := h.onC; have e12 := h.onR
  have e13 := h.cap; have e14 := h.flC; have e15 := h.flR; have e16 := h.psh; have e17 := h.pshW; have e18 := h.pshC
  have e19 := h.pshR; have e20 := h.pfl; have e21 := h.dbl; have e22 := h.uaf; have e23 := h.cn; have e24 := h.cs
  have e25 := h.st; have e26 := h.dm
  simp only [step] at hs
  split at hs
  · rename_i hm
    obtain ⟨hm, hd⟩ := hm
    cases hs
    simp only [hm, hd, mN, dN, fN, dS, pN, sp, used, isWake, cleared1, cleared2, Cb.onDrv, reduceCtorEq, false_or, or_false, true_or, or_true, true_and, and_true, false_and, and_false, false_imp_iff, true_imp_iff, Bool.false_eq_true, ne_eq, not_false_eq_true, not_true_eq_false, implies_true, forall_const, Nat.add_zero, Nat.zero_add, Dr.dec.injEq, Dr.rstC.injEq, Dr.rstR.injEq, Dr.fire.injEq] at e1 e2 e3 e4 e5 e6 e7 e8 e9 e10 e11 e12 e13 e14 e15 e16 e17 e18 e19 e20 e21 e22 e23 e24 e25 e26
    all_goals constructor
    all_goals simp only [upd_same, upd_other, hm, hd, mN, dN, fN, dS, pN, sp, used, isWake, cleared1, cleared2, Cb.onDrv, reduceCtorEq, false_or, or_false, true_or, or_true, true_and, and_true, false_and, and_false, false_imp_iff, true_imp_iff, Bool.false_eq_true, ne_eq, not_false_eq_true, not_true_eq_false, implies_true, forall_const, Nat.add_zero, Nat.zero_add, Dr.dec.injEq, Dr.rstC.injEq, Dr.rstR.injEq, Dr.fire.injEq]
    all_goals first
      | assumption
      | omega
      | (clear h; grind)
      | (simp_all; done)
      | (simp_all; omega)
      | skip
  · cases hs

theorem inv_take {s s' : St} (h : Inv s) (hs : step s .take = some s') : Inv s' := by
  have e1 := h.op; have e2 := h.tok; have e3 := h.once; have e4 := h.zero; have e5 := h.all; have e6 := h.offC
  have e7 := h.offR; have e8 := h.pre; have e9 := h.pre2; have e10 := h.pre3; have e11 := h.onC; have e12 := h.onR
  have e13 := h.cap; have e14 := h.flC; have e15 := h.flR; have e16 := h.psh; have e17 := h.pshW; have e18 := h.pshC
  have e19 := h.pshR; have e20 := h.pfl; have e21 := h.dbl; have e22 := h.uaf; have e23 := h.cn; have e24 := h.cs
  have e25 := h.st; have e26 := h.dm
  simp only [step] at hs
  split at hs
  · rename_i hm
    obtain ⟨hl, hd, hm1, hm2, hm3⟩ := hm
    cases hs
    simp only [hd, hm1, hm2, hm3, mN, dN, fN, dS, pN, sp, used, isWake, cleared1, cleared2, Cb.onDrv, reduceCtorEq, false_or, or_false, true_or, or_true, true_and, and_true, false_and, and_false, false_imp_iff, true_imp_iff, Bool.false_eq_true, ne_eq, not_false_eq_true, not_true_eq_false, implies_true, forall_const, Nat.add_zero, Nat.zero_add, Dr.dec.injEq, Dr.rstC.injEq, Dr.rstR.injEq, Dr.fire.injEq] at e1 e2 e3 e4 e5 e6 e7 e8 e9 e10 e11 e12 e13 e14 e15 e16 e17 e18 e19 e20 e21 e22 e23 e24 e25 e26
    all_goals constructor
    all_goals simp only [upd_same, upd_other, hd, hm1, hm2, hm3, mN, dN, fN, dS, pN, sp, used, isWake, cleared1, cleared2, Cb.onDrv, reduceCtorEq, false_or, or_false, true_or, or_true, true_and, and_true, false_and, and_false, false_imp_iff, true_imp_iff, Bool.false_eq_true, ne_eq, not_false_eq_true, not_true_eq_false, implies_true, forall_const, Nat.add_zero, Nat.zero_add, Dr.dec.injEq, Dr.rstC.injEq, Dr.rstR.injEq, Dr.fire.injEq]
    all_goals first
      | assumption
      | omega
      | (clear h; grind)
      | (simp_all; done)
      | (simp_all; omega)
      | skip
  · cases hs

theorem inv_takeC {s s' : St} (h : Inv s) (hs : step s .takeC = some s') : Inv s' := by
  have e1 := h.op; have e2 := h.tok; have e3 := h.once; have e4 := h.zero; have e5 := h.all; have e6 := h.offC
  have e7 := h.offR; have e8 := h.pre; have e9 := h.pre2; have e10 := h.pre3; have e11 := h.onC; have e12 := h.onR
  have e13 := h.cap; have e14 := h.flC; have e15 := h.flR; have e16 := h.psh; have e17 := h.pshW; have e18 := h.pshC
  have e19 := h.pshR; have e20 := h.pfl; have e21 := h.dbl; have e22 := h.uaf; have e23 := h.cn; have e24 := h.cs
  have e25 := h.st; have e26 := h.dm
  simp only [step] at hs
  split at hs
  · rename_i hm
    obtain ⟨hl, hd, hm1, hm2, hm3, hf⟩ := hm
    cases hs
    simp only [hd, hm1, hm2, hm3, hf, mN, dN, fN, dS, pN, sp, used, isWake, cleared1, cleared2, Cb.onDrv, reduceCtorEq, false_or, or_false, true_or, or_true, true_and, and_true, false_and, and_false, false_imp_iff, true_imp_iff, Bool.false_eq_true, ne_eq, not_false_eq_true, not_true_eq_false, implies_true, forall_const, Nat.add_zero, Nat.zero_add, Dr.dec.injEq, Dr.rstC.injEq, Dr.rstR.injEq, Dr.fire.injEq] at e1 e2 e3 e4 e5 e6 e7 e8 e9 e10 e11 e12 e13 e14 e15 e16 e17 e18 e19 e20 e21 e22 e23 e24 e25 e26
    all_goals constructor
    all_goals simp only [upd_same, upd_other, hd, hm1, hm2, hm3, hf, mN, dN, fN, dS, pN, sp, used, isWake, cleared1, cleared2, Cb.onDrv, reduceCtorEq, false_or, or_false, true_or, or_true, true_and, and_true, false_and, and_false, false_imp_iff, true_imp_iff, Bool.false_eq_true, ne_eq, not_false_eq_true, not_true_eq_false, implies_true, forall_const, Nat.add_zero, Nat.zero_add, Dr.dec.injEq, Dr.rstC.injEq, Dr.rstR.injEq, Dr.fire.injEq]
    all_goals first
      | assumption
      | omega
      | (clear h; grind)
      | (simp_all; done)
      | (simp_all; omega)
      | skip
  · cases hs

theorem inv_kstop {s s' : St} (h : Inv s) (hs : step s .kstop = some s') : Inv s' := by
  have e1 := h.op; have e2 := h.tok; have e3 := h.once; have e4 := h.zero; have e5 := h.all; have e6 := h.offC
  have e7 := h.offR; have e8 := h.pre; have e9 := h.pre2; have e10 := h.pre3; have e11 := h.onC; have e12 := h.onR
  have e13 := h.cap; have e14 := h.flC; have e15 := h.flR; have e16 := h.psh; have e17 := h.pshW; have e18 := h.pshC
  have e19 := h.pshR; have e20 := h.pfl; have e21 := h.dbl; have e22 := h.uaf; have e23 := h.cn; have e24 := h.cs
  have e25 := h.st; have e26 := h.dm
  simp only [step] at hs
  split at hs
  · rename_i hm
    obtain ⟨hl, hd, hm1, hm2, hm3⟩ := hm
    cases hs
    simp only [hd, hm1, hm2, hm3, mN, dN, fN, dS, pN, sp, used, isWake, cleared1, cleared2, Cb.onDrv, reduceCtorEq, false_or, or_false, true_or, or_true, true_and, and_true, false_and, and_false, false_imp_iff, true_imp_iff, Bool.false_eq_true, ne_eq, not_false_eq_true, not_true_eq_false, implies_true, forall_const, Nat.add_zero, Nat.zero_add, Dr.dec.injEq, Dr.rstC.injEq, Dr.rstR.injEq, Dr.fire.injEq] at e1 e2 e3 e4 e5 e6 e7 e8 e9 e10 e11 e12 e13 e14 e15 e16 e17 e18 e19 e20 e21 e22 e23 e24 e25 e26
    all_goals constructor
    all_goals simp only [upd_same, upd_other, hd, hm1, hm2, hm3, mN, dN, fN, dS, pN, sp, used, isWake, cleared1, cleared2, Cb.onDrv, reduceCtorEq, false_or, or_false, true_or, or_true, true_and, and_true, false_and, and_false, false_imp_iff, true_imp_iff, Bool.false_eq_true, ne_eq, not_false_eq_true, not_true_eq_false, implies_true, forall_const, Nat.add_zero, Nat.zero_add, Dr.dec.injEq, Dr.rstC.injEq, Dr.rstR.injEq, Dr.fire.injEq]
    all_goals first
      | assumption
      | omega
      | (clear h; grind)
      | (simp_all; done)
      | (simp_all; omega)
      | skip
  · cases hs

theorem inv_kmain {s s' : St} {c : Bool} (h : Inv s) (hs : step s (.kmain c) = some s') : Inv s' := by
  have e1 := h.op; have e2 := h.tok; have e3 := h.once; have e4 := h.zero; have e5 := h.all; have e6 := h.offC
  have e7 := h.offR; have e8 := h.pre; have e9 := h.pre2; have e10 := h.pre3; have e11 := h.onC; have e12 := h.onR
  have e13 := h.cap; have e14 := h.flC; have e15 := h.flR; have e16 := h.psh; have e17 := h.pshW; have e18 := h.pshC
  have e19 := h.pshR; have e20 := h.pfl; have e21 := h.dbl; have e22 := h.uaf; have e23 := h.cn; have e24 := h.cs
  have e25 := h.st; have e26 := h.dm
  simp only [step] at hs
  split at hs
  · rename_i hm
    obtain ⟨hm, hd⟩ := hm
    cases hs
    simp only [hm, hd, mN, dN, fN, dS, pN, sp, used, isWake, cleared1, cleared2, Cb.onDrv, reduceCtorEq, false_or, or_false, true_or, or_true, true_and, and_true, false_and, and_false, false_imp_iff, true_imp_iff, Bool.false_eq_true, ne_eq, not_false_eq_true, not_true_eq_false, implies_true, forall_const, Nat.add_zero, Nat.zero_add, Dr.dec.injEq, Dr.rstC.injEq, Dr.rstR.injEq, Dr.fire.injEq] at e1 e2 e3 e4 e5 e6 e7 e8 e9 e10 e11 e12 e13 e14 e15 e16 e17 e18 e19 e20 e21 e22 e23 e24 e25 e26
    all_goals constructor
    all_goals simp only [upd_same, upd_other, hm, hd, mN, dN, fN, dS, pN, sp, used, isWake, cleared1, cleared2, Cb.onDrv, reduceCtorEq, false_or, or_false, true_or, or_true, true_and, and_true, false_and, and_false, false_imp_iff, true_imp_iff, Bool.false_eq_true, ne_eq, not_false_eq_true, not_true_eq_false, implies_true, forall_const, Nat.add_zero, Nat.zero_add, Dr.dec.injEq, Dr.rstC.injEq, Dr.rstR.injEq, Dr.fire.injEq]
    all_goals first
      | assumption
      | omega
      | (clear h; grind)
      | (simp_all; done)
      | (simp_all; omega)
      | skip
  · cases hs

theorem inv_sub1 {s s' : St} (h : Inv s) (hs : step s .sub1 = some s') : Inv s' := by
  have e1 := h.op; have e2 := h.tok; have e3 := h.once; have e4 := h.zero; have e5 := h.all; have e6 := h.offC
  have e7 := h.offR; have e8 := h.pre; have e9 := h.pre2; have e10 := h.pre3; have e11 := h.onC; have e12 := h.onR
  have e13 := h.cap; have e14 := h.flC; have e15 := h.flR; have e16 := h.psh; have e17 := h.pshW; have e18 := h.pshC
  have e19 := h.pshR; have e20 := h.pfl; have e21 := h.dbl; have e22 := h.uaf; have e23 := h.cn; have e24 := h.cs
  have e25 := h.st; have e26 := h.dm
  simp only [step] at hs
  split at hs
  · rename_i hm
    obtain hm := hm
    cases hs
    cases hf : s.flag .ctx <;> simp only [emplace, hf, if_true, if_false, Bool.false_eq_true]
    all_goals simp only [hm, hf, if_true, if_false, mN, dN, fN, dS, pN, sp, used, isWake, cleared1, cleared2, Cb.onDrv, reduceCtorEq, false_or, or_false, true_or, or_true, true_and, and_true, false_and, and_false, false_imp_iff, true_imp_iff, Bool.false_eq_true, ne_eq, not_false_eq_true, not_true_eq_false, implies_true, forall_const, Nat.add_zero, Nat.zero_add, Dr.dec.injEq, Dr.rstC.injEq, Dr.rstR.injEq, Dr.fire.injEq] at e1 e2 e3 e4 e5 e6 e7 e8 e9 e10 e11 e12 e13 e14 e15 e16 e17 e18 e19 e20 e21 e22 e23 e24 e25 e26
    all_goals constructor
    all_goals simp only [upd_same, upd_other, hm, hf, if_true, if_false, mN, dN, fN, dS, pN, sp, used, isWake, cleared1, cleared2, Cb.onDrv, reduceCtorEq, false_or, or_false, true_or, or_true, true_and, and_true, false_and, and_false, false_imp_iff, true_imp_iff, Bool.false_eq_true, ne_eq, not_false_eq_true, not_true_eq_false, implies_true, forall_const, Nat.add_zero, Nat.zero_add, Dr.dec.injEq, Dr.rstC.injEq, Dr.rstR.injEq, Dr.fire.injEq]
    all_goals first
      | assumption
      | omega
      | (clear h; grind)
      | (simp_all; done)
      | (simp_all; omega)
      | skip
  · cases hs

theorem inv_sub2 {s s' : St} (h : Inv s) (hs : step s .sub2 = some s') : Inv s' := by
  have e1 := h.op; have e2 := h.tok; have e3 := h.once; have e4 := h.zero; have e5 := h.all; have e6 := h.offC
  have e7 := h.offR; have e8 := h.pre; have e9 := h.pre2; have e10 := h.pre3; have e11 := h.onC; have e12 := h.onR
  have e13 := h.cap; have e14 := h.flC; have e15 := h.flR; have e16 := h.psh; have e17 := h.pshW; have e18 := h.pshC
  have e19 := h.pshR; have e20 := h.pfl; have e21 := h.dbl; have e22 := h.uaf; have e23 := h.cn; have e24 := h.cs
  have e25 := h.st; have e26 := h.dm
  simp only [step] at hs
  split at hs
  · rename_i hm
    obtain ⟨hm, hb⟩ := hm
    cases hs
    cases hf : s.flag .rcv <;> simp only [emplace, hf, if_true, if_false, Bool.false_eq_true]
    all_goals simp only [hm, hf, if_true, if_false, mN, dN, fN, dS, pN, sp, used, isWake, cleared1, cleared2, Cb.onDrv, reduceCtorEq, false_or, or_false, true_or, or_true, true_and, and_true, false_and, and_false, false_imp_iff, true_imp_iff, Bool.false_eq_true, ne_eq, not_false_eq_true, not_true_eq_false, implies_true, forall_const, Nat.add_zero, Nat.zero_add, Dr.dec.injEq, Dr.rstC.injEq, Dr.rstR.injEq, Dr.fire.injEq] at e1 e2 e3 e4 e5 e6 e7 e8 e9 e10 e11 e12 e13 e14 e15 e16 e17 e18 e19 e20 e21 e22 e23 e24 e25 e26
    all_goals constructor
    all_goals simp only [upd_same, upd_other, hm, hf, if_true, if_false, mN, dN, fN, dS, pN, sp, used, isWake, cleared1, cleared2, Cb.onDrv, reduceCtorEq, false_or, or_false, true_or, or_true, true_and, and_true, false_and, and_false, false_imp_iff, true_imp_iff, Bool.false_eq_true, ne_eq, not_false_eq_true, not_true_eq_false, implies_true, forall_const, Nat.add_zero, Nat.zero_add, Dr.dec.injEq, Dr.rstC.injEq, Dr.rstR.injEq, Dr.fire.injEq]
    all_goals first
      | assumption
      | omega
      | (clear h; grind)
      | (simp_all; done)
      | (simp_all; omega)
      | skip
  · cases hs

theorem inv_sub3 {s s' : St} {c : Bool} (h : Inv s) (hs : step s (.sub3 c) = some s') : Inv s' := by
  have e1 := h.op; have e2 := h.tok; have e3 := h.once; have e4 := h.zero; have e5 := h.all; have e6 := h.offC
  have e7 := h.offR; have e8 := h.pre; have e9 := h.pre2; have e10 := h.pre3; have e11 := h.onC; have e12 := h.onR
  have e13 := h.cap; have e14 := h.flC; have e15 := h.flR; have e16 := h.psh; have e17 := h.pshW; have e18 := h.pshC
  have e19 := h.pshR; have e20 := h.pfl; have e21 := h.dbl; have e22 := h.uaf; have e23 := h.cn; have e24 := h.cs
  have e25 := h.st; have e26 := h.dm
  simp only [step] at hs
  split at hs
  · rename_i hm
    obtain ⟨hm, hb⟩ := hm
    cases c
    · simp only [Bool.false_eq_true, if_false] at hs
      cases hs
      simp only [hm, mN, dN, fN, dS, pN, sp, used, isWake, cleared1, cleared2, Cb.onDrv, reduceCtorEq, false_or, or_false, true_or, or_true, true_and, and_true, false_and, and_false, false_imp_iff, true_imp_iff, Bool.false_eq_true, ne_eq, not_false_eq_true, not_true_eq_false, implies_true, forall_const, Nat.add_zero, Nat.zero_add, Dr.dec.injEq, Dr.rstC.injEq, Dr.rstR.injEq, Dr.fire.injEq] at e1 e2 e3 e4 e5 e6 e7 e8 e9 e10 e11 e12 e13 e14 e15 e16 e17 e18 e19 e20 e21 e22 e23 e24 e25 e26
      all_goals constructor
      all_goals simp only [upd_same, upd_other, hm, mN, dN, fN, dS, pN, sp, used, isWake, cleared1, cleared2, Cb.onDrv, reduceCtorEq, false_or, or_false, true_or, or_true, true_and, and_true, false_and, and_false, false_imp_iff, true_imp_iff, Bool.false_eq_true, ne_eq, not_false_eq_true, not_true_eq_false, implies_true, forall_const, Nat.add_zero, Nat.zero_add, Dr.dec.injEq, Dr.rstC.injEq, Dr.rstR.injEq, Dr.fire.injEq]
      all_goals first
        | assumption
        | omega
        | (clear h; grind)
        | (simp_all; done)
        | (simp_all; omega)
        | skip
    · simp only [if_true] at hs
      split at hs
      · rename_i hf
        cases hs
        simp only [hm, hf, mN, dN, fN, dS, pN, sp, used, isWake, cleared1, cleared2, Cb.onDrv, reduceCtorEq, false_or, or_false, true_or, or_true, true_and, and_true, false_and, and_false, false_imp_iff, true_imp_iff, Bool.false_eq_true, ne_eq, not_false_eq_true, not_true_eq_false, implies_true, forall_const, Nat.add_zero, Nat.zero_add, Dr.dec.injEq, Dr.rstC.injEq, Dr.rstR.injEq, Dr.fire.injEq] at e1 e2 e3 e4 e5 e6 e7 e8 e9 e10 e11 e12 e13 e14 e15 e16 e17 e18 e19 e20 e21 e22 e23 e24 e25 e26
        all_goals constructor
        all_goals simp only [upd_same, upd_other, hm, hf, mN, dN, fN, dS, pN, sp, used, isWake, cleared1, cleared2, Cb.onDrv, reduceCtorEq, false_or, or_false, true_or, or_true, true_and, and_true, false_and, and_false, false_imp_iff, true_imp_iff, Bool.false_eq_true, ne_eq, not_false_eq_true, not_true_eq_false, implies_true, forall_const, Nat.add_zero, Nat.zero_add, Dr.dec.injEq, Dr.rstC.injEq, Dr.rstR.injEq, Dr.fire.injEq]
        all_goals first
          | assumption
          | omega
          | (clear h; grind)
          | (simp_all; done)
          | (simp_all; omega)
          | skip
      · cases hs
  · cases hs

theorem inv_dec {s s' : St} (h : Inv s) {m c : Bool} (hd : s.dr = .dec m c) (hs : step s .dr = some s') : Inv s' := by
  have e1 := h.op; have e2 := h.tok; have e3 := h.once; have e4 := h.zero; have e5 := h.all; have e6 := h.offC
  have e7 := h.offR; have e8 := h.pre; have e9 := h.pre2; have e10 := h.pre3; have e11 := h.onC; have e12 := h.onR
  have e13 := h.cap; have e14 := h.flC; have e15 := h.flR; have e16 := h.psh; have e17 := h.pshW; have e18 := h.pshC
  have e19 := h.pshR; have e20 := h.pfl; have e21 := h.dbl; have e22 := h.uaf; have e23 := h.cn; have e24 := h.cs
  have e25 := h.st; have e26 := h.dm
  simp only [step, stepDr, hd] at hs
  cases hs
  by_cases hn : s.nops = 1 <;> simp only [hn, if_true, if_false] <;> cases m
  all_goals
    simp only [hd, mN, dN, fN, dS, pN, sp, used, isWake, cleared1, cleared2, Cb.onDrv, reduceCtorEq, false_or, or_false, true_or, or_true, true_and, and_true, false_and, and_false, false_imp_iff, true_imp_iff, Bool.false_eq_true, ne_eq, not_false_eq_true, not_true_eq_false, implies_true, forall_const, Nat.add_zero, Nat.zero_add, Dr.dec.injEq, Dr.rstC.injEq, Dr.rstR.injEq, Dr.fire.injEq] at e1 e2 e3 e4 e5 e6 e7 e8 e9 e10 e11 e12 e13 e14 e15 e16 e17 e18 e19 e20 e21 e22 e23 e24 e25 e26
    all_goals constructor
    all_goals simp only [upd_same, upd_other, hd, mN, dN, fN, dS, pN, sp, used, isWake, cleared1, cleared2, Cb.onDrv, reduceCtorEq, false_or, or_false, true_or, or_true, true_and, and_true, false_and, and_false, false_imp_iff, true_imp_iff, Bool.false_eq_true, ne_eq, not_false_eq_true, not_true_eq_false, implies_true, forall_const, Nat.add_zero, Nat.zero_add, Dr.dec.injEq, Dr.rstC.injEq, Dr.rstR.injEq, Dr.fire.injEq]
    all_goals first
      | assumption
      | omega
      | (clear h; grind)
      | (simp_all; done)
      | (simp_all; omega)
      | skip
  case pos.false.zero =>
    intro _
    refine ⟨?_, by omega⟩
    cases hm : s.main <;> simp [hm, mN] at e2 e8 e26 ⊢
    all_goals omega

theorem inv_rstC {s s' : St} (h : Inv s) {m c : Bool} (hd : s.dr = .rstC m c) (hs : step s .dr = some s') : Inv s' := by
  have e1 := h.op; have e2 := h.tok; have e3 := h.once; have e4 := h.zero; have e5 := h.all; have e6 := h.offC
  have e7 := h.offR; have e8 := h.pre; have e9 := h.pre2; have e10 := h.pre3; have e11 := h.onC; have e12 := h.onR
  have e13 := h.cap; have e14 := h.flC; have e15 := h.flR; have e16 := h.psh; have e17 := h.pshW; have e18 := h.pshC
  have e19 := h.pshR; have e20 := h.pfl; have e21 := h.dbl; have e22 := h.uaf; have e23 := h.cn; have e24 := h.cs
  have e25 := h.st; have e26 := h.dm
  simp only [step, stepDr, hd] at hs
  split at hs
  · cases hs
  · rename_i hr
    cases hs
    simp only [hd, mN, dN, fN, dS, pN, sp, used, isWake, cleared1, cleared2, Cb.onDrv, reduceCtorEq, false_or, or_false, true_or, or_true, true_and, and_true, false_and, and_false, false_imp_iff, true_imp_iff, Bool.false_eq_true, ne_eq, not_false_eq_true, not_true_eq_false, implies_true, forall_const, Nat.add_zero, Nat.zero_add, Dr.dec.injEq, Dr.rstC.injEq, Dr.rstR.injEq, Dr.fire.injEq] at e1 e2 e3 e4 e5 e6 e7 e8 e9 e10 e11 e12 e13 e14 e15 e16 e17 e18 e19 e20 e21 e22 e23 e24 e25 e26
    all_goals constructor
    all_goals simp only [upd_same, upd_other, hd, mN, dN, fN, dS, pN, sp, used, isWake, cleared1, cleared2, Cb.onDrv, reduceCtorEq, false_or, or_false, true_or, or_true, true_and, and_true, false_and, and_false, false_imp_iff, true_imp_iff, Bool.false_eq_true, ne_eq, not_false_eq_true, not_true_eq_false, implies_true, forall_const, Nat.add_zero, Nat.zero_add, Dr.dec.injEq, Dr.rstC.injEq, Dr.rstR.injEq, Dr.fire.injEq]
    all_goals first
      | assumption
      | omega
      | (clear h; grind)
      | (simp_all; done)
      | (simp_all; omega)
      | skip

theorem inv_rstR {s s' : St} (h : Inv s) {m c : Bool} (hd : s.dr = .rstR m c) (hs : step s .dr = some s') : Inv s' := by
  have e1 := h.op; have e2 := h.tok; have e3 := h.once; have e4 := h.zero; have e5 := h.all; have e6 := h.offC
  have e7 := h.offR; have e8 := h.pre; have e9 := h.pre2; have e10 := h.pre3; have e11 := h.onC; have e12 := h.onR
  have e13 := h.cap; have e14 := h.flC; have e15 := h.flR; have e16 := h.psh; have e17 := h.pshW; have e18 := h.pshC
  have e19 := h.pshR; have e20 := h.pfl; have e21 := h.dbl; have e22 := h.uaf; have e23 := h.cn; have e24 := h.cs
  have e25 := h.st; have e26 := h.dm
  simp only [step, stepDr, hd] at hs
  split at hs
  · cases hs
  · rename_i hr
    cases hs
    simp only [hd, mN, dN, fN, dS, pN, sp, used, isWake, cleared1, cleared2, Cb.onDrv, reduceCtorEq, false_or, or_false, true_or, or_true, true_and, and_true, false_and, and_false, false_imp_iff, true_imp_iff, Bool.false_eq_true, ne_eq, not_false_eq_true, not_true_eq_false, implies_true, forall_const, Nat.add_zero, Nat.zero_add, Dr.dec.injEq, Dr.rstC.injEq, Dr.rstR.injEq, Dr.fire.injEq] at e1 e2 e3 e4 e5 e6 e7 e8 e9 e10 e11 e12 e13 e14 e15 e16 e17 e18 e19 e20 e21 e22 e23 e24 e25 e26
    all_goals constructor
    all_goals simp only [upd_same, upd_other, hd, mN, dN, fN, dS, pN, sp, used, isWake, cleared1, cleared2, Cb.onDrv, reduceCtorEq, false_or, or_false, true_or, or_true, true_and, and_true, false_and, and_false, false_imp_iff, true_imp_iff, Bool.false_eq_true, ne_eq, not_false_eq_true, not_true_eq_false, implies_true, forall_const, Nat.add_zero, Nat.zero_add, Dr.dec.injEq, Dr.rstC.injEq, Dr.rstR.injEq, Dr.fire.injEq]
    all_goals first
      | assumption
      | omega
      | (clear h; grind)
      | (simp_all; done)
      | (simp_all; omega)
      | skip

theorem inv_fire {s s' : St} (h : Inv s) {m c : Bool} (hd : s.dr = .fire m c) (hs : step s .dr = some s') : Inv s' := by
  have e1 := h.op; have e2 := h.tok; have e3 := h.once; have e4 := h.zero; have e5 := h.all; have e6 := h.offC
  have e7 := h.offR; have e8 := h.pre; have e9 := h.pre2; have e10 := h.pre3; have e11 := h.onC; have e12 := h.onR
  have e13 := h.cap; have e14 := h.flC; have e15 := h.flR; have e16 := h.psh; have e17 := h.pshW; have e18 := h.pshC
  have e19 := h.pshR; have e20 := h.pfl; have e21 := h.dbl; have e22 := h.uaf; have e23 := h.cn; have e24 := h.cs
  have e25 := h.st; have e26 := h.dm
  simp only [step, stepDr, hd] at hs
  cases hs
  cases m <;> cases c
  all_goals
    simp only [hd, mN, dN, fN, dS, pN, sp, used, isWake, cleared1, cleared2, Cb.onDrv, reduceCtorEq, false_or, or_false, true_or, or_true, true_and, and_true, false_and, and_false, false_imp_iff, true_imp_iff, Bool.false_eq_true, ne_eq, not_false_eq_true, not_true_eq_false, implies_true, forall_const, Nat.add_zero, Nat.zero_add, Dr.dec.injEq, Dr.rstC.injEq, Dr.rstR.injEq, Dr.fire.injEq] at e1 e2 e3 e4 e5 e6 e7 e8 e9 e10 e11 e12 e13 e14 e15 e16 e17 e18 e19 e20 e21 e22 e23 e24 e25 e26
    all_goals constructor
    all_goals simp only [upd_same, upd_other, hd, mN, dN, fN, dS, pN, sp, used, isWake, cleared1, cleared2, Cb.onDrv, reduceCtorEq, false_or, or_false, true_or, or_true, true_and, and_true, false_and, and_false, false_imp_iff, true_imp_iff, Bool.false_eq_true, ne_eq, not_false_eq_true, not_true_eq_false, implies_true, forall_const, Nat.add_zero, Nat.zero_add, Dr.dec.injEq, Dr.rstC.injEq, Dr.rstR.injEq, Dr.fire.injEq]
    all_goals first
      | assumption
      | omega
      | (clear h; grind)
      | (simp_all; done)
      | (simp_all; omega)
      | skip

theorem inv_req_ctx {s s' : St} (h : Inv s) (hs : step s (.req .ctx) = some s') : Inv s' := by
  have e1 := h.op; have e2 := h.tok; have e3 := h.once; have e4 := h.zero; have e5 := h.all; have e6 := h.offC
  have e7 := h.offR; have e8 := h.pre; have e9 := h.pre2; have e10 := h.pre3; have e11 := h.onC; have e12 := h.onR
  have e13 := h.cap; have e14 := h.flC; have e15 := h.flR; have e16 := h.psh; have e17 := h.pshW; have e18 := h.pshC
  have e19 := h.pshR; have e20 := h.pfl; have e21 := h.dbl; have e22 := h.uaf; have e23 := h.cn; have e24 := h.cs
  have e25 := h.st; have e26 := h.dm
  simp only [step] at hs
  split at hs
  · cases hs
  · rename_i hf
    cases hs
    by_cases hc : s.cb .ctx = .armed <;> simp only [hc, if_true, if_false]
    all_goals
    try simp only [hc] at e1 e2 e3 e4 e5 e6 e7 e8 e9 e10 e11 e12 e13 e14 e15 e16 e17 e18 e19 e20 e21 e22 e23 e24 e25 e26
    simp only [hf, mN, dN, fN, dS, pN, sp, used, isWake, cleared1, cleared2, Cb.onDrv, reduceCtorEq, false_or, or_false, true_or, or_true, true_and, and_true, false_and, and_false, false_imp_iff, true_imp_iff, Bool.false_eq_true, ne_eq, not_false_eq_true, not_true_eq_false, implies_true, forall_const, Nat.add_zero, Nat.zero_add, Dr.dec.injEq, Dr.rstC.injEq, Dr.rstR.injEq, Dr.fire.injEq] at e1 e2 e3 e4 e5 e6 e7 e8 e9 e10 e11 e12 e13 e14 e15 e16 e17 e18 e19 e20 e21 e22 e23 e24 e25 e26
    all_goals constructor
    all_goals simp only [upd_same, upd_other, hf, mN, dN, fN, dS, pN, sp, used, isWake, cleared1, cleared2, Cb.onDrv, reduceCtorEq, false_or, or_false, true_or, or_true, true_and, and_true, false_and, and_false, false_imp_iff, true_imp_iff, Bool.false_eq_true, ne_eq, not_false_eq_true, not_true_eq_false, implies_true, forall_const, Nat.add_zero, Nat.zero_add, Dr.dec.injEq, Dr.rstC.injEq, Dr.rstR.injEq, Dr.fire.injEq]
    all_goals first
      | assumption
      | omega
      | (clear h; grind)
      | (simp_all; done)
      | (simp_all; omega)
      | skip

theorem inv_cb_ctx_cas {s s' : St} (h : Inv s) {b : Bool} (hc : s.cb .ctx = .run .cas b) (hs : step s (.cb .ctx) = some s') : Inv s' := by
  have e1 := h.op; have e2 := h.tok; have e3 := h.once; have e4 := h.zero; have e5 := h.all; have e6 := h.offC
  have e7 := h.offR; have e8 := h.pre; have e9 := h.pre2; have e10 := h.pre3; have e11 := h.onC; have e12 := h.onR
  have e13 := h.cap; have e14 := h.flC; have e15 := h.flR; have e16 := h.psh; have e17 := h.pshW; have e18 := h.pshC
  have e19 := h.pshR; have e20 := h.pfl; have e21 := h.dbl; have e22 := h.uaf; have e23 := h.cn; have e24 := h.cs
  have e25 := h.st; have e26 := h.dm
  simp only [step, stepCb, hc] at hs
  cases hs
  by_cases hn : s.nops = 1 <;> simp only [hn, if_true, if_false]
  all_goals
    simp only [hc, mN, dN, fN, dS, pN, sp, used, isWake, cleared1, cleared2, Cb.onDrv, reduceCtorEq, false_or, or_false, true_or, or_true, true_and, and_true, false_and, and_false, false_imp_iff, true_imp_iff, Bool.false_eq_true, ne_eq, not_false_eq_true, not_true_eq_false, implies_true, forall_const, Nat.add_zero, Nat.zero_add, Dr.dec.injEq, Dr.rstC.injEq, Dr.rstR.injEq, Dr.fire.injEq] at e1 e2 e3 e4 e5 e6 e7 e8 e9 e10 e11 e12 e13 e14 e15 e16 e17 e18 e19 e20 e21 e22 e23 e24 e25 e26
    all_goals constructor
    all_goals simp only [upd_same, upd_other, hc, mN, dN, fN, dS, pN, sp, used, isWake, cleared1, cleared2, Cb.onDrv, reduceCtorEq, false_or, or_false, true_or, or_true, true_and, and_true, false_and, and_false, false_imp_iff, true_imp_iff, Bool.false_eq_true, ne_eq, not_false_eq_true, not_true_eq_false, implies_true, forall_const, Nat.add_zero, Nat.zero_add, Dr.dec.injEq, Dr.rstC.injEq, Dr.rstR.injEq, Dr.fire.injEq]
    all_goals first
      | assumption
      | omega
      | (clear h; grind)
      | (simp_all; done)
      | (simp_all; omega)
      | skip
  case neg.pshC =>
    show 1 ≤ s.pushes ∨ pN (s.cb .rcv) = 1 ∨ s.main = .gone
    have q := sp_le (s.cb .rcv)
    have q2 := pN_le (s.cb .rcv)
    have t1 := h.tok; have t2 := h.pre; have t3 := h.dm; have t4 := h.psh
    by_cases hg : s.main = .gone
    · exact Or.inr (Or.inr hg)
    · by_cases hp : 1 ≤ s.linked + s.ringS + dS s.dr
      · exact Or.inl (t4 hp)
      · right; left
        have hmm := t3 hg
        have hz : pN (s.cb .ctx) = 0 := by rw [hc]; rfl
        have hmn : mN s.main = 1 := by
          cases hm : s.main <;> simp [hm, mN, hc] at t2 hg ⊢
        omega

theorem inv_cb_ctx_push {s s' : St} (h : Inv s) {b : Bool} (hc : s.cb .ctx = .run .push b) (hs : step s (.cb .ctx) = some s') : Inv s' := by
  have e1 := h.op; have e2 := h.tok; have e3 := h.once; have e4 := h.zero; have e5 := h.all; have e6 := h.offC
  have e7 := h.offR; have e8 := h.pre; have e9 := h.pre2; have e10 := h.pre3; have e11 := h.onC; have e12 := h.onR
  have e13 := h.cap; have e14 := h.flC; have e15 := h.flR; have e16 := h.psh; have e17 := h.pshW; have e18 := h.pshC
  have e19 := h.pshR; have e20 := h.pfl; have e21 := h.dbl; have e22 := h.uaf; have e23 := h.cn; have e24 := h.cs
  have e25 := h.st; have e26 := h.dm
  simp only [step, stepCb, hc] at hs
  cases hs
  skip
  all_goals
    simp only [hc, mN, dN, fN, dS, pN, sp, used, isWake, cleared1, cleared2, Cb.onDrv, reduceCtorEq, false_or, or_false, true_or, or_true, true_and, and_true, false_and, and_false, false_imp_iff, true_imp_iff, Bool.false_eq_true, ne_eq, not_false_eq_true, not_true_eq_false, implies_true, forall_const, Nat.add_zero, Nat.zero_add, Dr.dec.injEq, Dr.rstC.injEq, Dr.rstR.injEq, Dr.fire.injEq] at e1 e2 e3 e4 e5 e6 e7 e8 e9 e10 e11 e12 e13 e14 e15 e16 e17 e18 e19 e20 e21 e22 e23 e24 e25 e26
    all_goals constructor
    all_goals simp only [upd_same, upd_other, hc, mN, dN, fN, dS, pN, sp, used, isWake, cleared1, cleared2, Cb.onDrv, reduceCtorEq, false_or, or_false, true_or, or_true, true_and, and_true, false_and, and_false, false_imp_iff, true_imp_iff, Bool.false_eq_true, ne_eq, not_false_eq_true, not_true_eq_false, implies_true, forall_const, Nat.add_zero, Nat.zero_add, Dr.dec.injEq, Dr.rstC.injEq, Dr.rstR.injEq, Dr.fire.injEq]
    all_goals first
      | assumption
      | omega
      | (clear h; grind)
      | (simp_all; done)
      | (simp_all; omega)
      | skip
  case refl.dbl =>
    intro hx
    have t1 := h.cap
    have hz : pN (s.cb .ctx) = 1 ∧ sp (s.cb .ctx) = 1 := by rw [hc]; exact ⟨rfl, rfl⟩
    rcases Nat.eq_zero_or_pos s.linked with hl | hl
    · simp only [hl, Nat.lt_irrefl, decide_false, Bool.or_false] at hx
      exact h.dbl hx
    · have q := sp_used (c := s.cb .rcv) (by omega)
      exact ⟨h.flC (by rw [hc]; rfl), h.flR q⟩

theorem inv_cb_ctx_wake {s s' : St} (h : Inv s) {b : Bool} (hc : s.cb .ctx = .run .wake b) (hs : step s (.cb .ctx) = some s') : Inv s' := by
  have e1 := h.op; have e2 := h.tok; have e3 := h.once; have e4 := h.zero; have e5 := h.all; have e6 := h.offC
  have e7 := h.offR; have e8 := h.pre; have e9 := h.pre2; have e10 := h.pre3; have e11 := h.onC; have e12 := h.onR
  have e13 := h.cap; have e14 := h.flC; have e15 := h.flR; have e16 := h.psh; have e17 := h.pshW; have e18 := h.pshC
  have e19 := h.pshR; have e20 := h.pfl; have e21 := h.dbl; have e22 := h.uaf; have e23 := h.cn; have e24 := h.cs
  have e25 := h.st; have e26 := h.dm
  simp only [step, stepCb, hc] at hs
  cases hs
  skip
  all_goals
    simp only [hc, mN, dN, fN, dS, pN, sp, used, isWake, cleared1, cleared2, Cb.onDrv, reduceCtorEq, false_or, or_false, true_or, or_true, true_and, and_true, false_and, and_false, false_imp_iff, true_imp_iff, Bool.false_eq_true, ne_eq, not_false_eq_true, not_true_eq_false, implies_true, forall_const, Nat.add_zero, Nat.zero_add, Dr.dec.injEq, Dr.rstC.injEq, Dr.rstR.injEq, Dr.fire.injEq] at e1 e2 e3 e4 e5 e6 e7 e8 e9 e10 e11 e12 e13 e14 e15 e16 e17 e18 e19 e20 e21 e22 e23 e24 e25 e26
    all_goals constructor
    all_goals simp only [upd_same, upd_other, hc, mN, dN, fN, dS, pN, sp, used, isWake, cleared1, cleared2, Cb.onDrv, reduceCtorEq, false_or, or_false, true_or, or_true, true_and, and_true, false_and, and_false, false_imp_iff, true_imp_iff, Bool.false_eq_true, ne_eq, not_false_eq_true, not_true_eq_false, implies_true, forall_const, Nat.add_zero, Nat.zero_add, Dr.dec.injEq, Dr.rstC.injEq, Dr.rstR.injEq, Dr.fire.injEq]
    all_goals first
      | assumption
      | omega
      | (clear h; grind)
      | (simp_all; done)
      | (simp_all; omega)
      | skip

theorem inv_req_rcv {s s' : St} (h : Inv s) (hs : step s (.req .rcv) = some s') : Inv s' := by
  have e1 := h.op; have e2 := h.tok; have e3 := h.once; have e4 := h.zero; have e5 := h.all; have e6 := h.offC
  have e7 := h.offR; have e8 := h.pre; have e9 := h.pre2; have e10 := h.pre3; have e11 := h.onC; have e12 := h.onR
  have e13 := h.cap; have e14 := h.flC; have e15 := h.flR; have e16 := h.psh; have e17 := h.pshW; have e18 := h.pshC
  have e19 := h.pshR; have e20 := h.pfl; have e21 := h.dbl; have e22 := h.uaf; have e23 := h.cn; have e24 := h.cs
  have e25 := h.st; have e26 := h.dm
  simp only [step] at hs
  split at hs
  · cases hs
  · rename_i hf
    cases hs
    by_cases hc : s.cb .rcv = .armed <;> simp only [hc, if_true, if_false]
    all_goals
    try simp only [hc] at e1 e2 e3 e4 e5 e6 e7 e8 e9 e10 e11 e12 e13 e14 e15 e16 e17 e18 e19 e20 e21 e22 e23 e24 e25 e26
    simp only [hf, mN, dN, fN, dS, pN, sp, used, isWake, cleared1, cleared2, Cb.onDrv, reduceCtorEq, false_or, or_false, true_or, or_true, true_and, and_true, false_and, and_false, false_imp_iff, true_imp_iff, Bool.false_eq_true, ne_eq, not_false_eq_true, not_true_eq_false, implies_true, forall_const, Nat.add_zero, Nat.zero_add, Dr.dec.injEq, Dr.rstC.injEq, Dr.rstR.injEq, Dr.fire.injEq] at e1 e2 e3 e4 e5 e6 e7 e8 e9 e10 e11 e12 e13 e14 e15 e16 e17 e18 e19 e20 e21 e22 e23 e24 e25 e26
    all_goals constructor
    all_goals simp only [upd_same, upd_other, hf, mN, dN, fN, dS, pN, sp, used, isWake, cleared1, cleared2, Cb.onDrv, reduceCtorEq, false_or, or_false, true_or, or_true, true_and, and_true, false_and, and_false, false_imp_iff, true_imp_iff, Bool.false_eq_true, ne_eq, not_false_eq_true, not_true_eq_false, implies_true, forall_const, Nat.add_zero, Nat.zero_add, Dr.dec.injEq, Dr.rstC.injEq, Dr.rstR.injEq, Dr.fire.injEq]
    all_goals first
      | assumption
      | omega
      | (clear h; grind)
      | (simp_all; done)
      | (simp_all; omega)
      | skip

theorem inv_cb_rcv_cas {s s' : St} (h : Inv s) {b : Bool} (hc : s.cb .rcv = .run .cas b) (hs : step s (.cb .rcv) = some s') : Inv s' := by
  have e1 := h.op; have e2 := h.tok; have e3 := h.once; have e4 := h.zero; have e5 := h.all; have e6 := h.offC
  have e7 := h.offR; have e8 := h.pre; have e9 := h.pre2; have e10 := h.pre3; have e11 := h.onC; have e12 := h.onR
  have e13 := h.cap; have e14 := h.flC; have e15 := h.flR; have e16 := h.psh; have e17 := h.pshW; have e18 := h.pshC
  have e19 := h.pshR; have e20 := h.pfl; have e21 := h.dbl; have e22 := h.uaf; have e23 := h.cn; have e24 := h.cs
  have e25 := h.st; have e26 := h.dm
  simp only [step, stepCb, hc] at hs
  cases hs
  by_cases hn : s.nops = 1 <;> simp only [hn, if_true, if_false]
  all_goals
    simp only [hc, mN, dN, fN, dS, pN, sp, used, isWake, cleared1, cleared2, Cb.onDrv, reduceCtorEq, false_or, or_false, true_or, or_true, true_and, and_true, false_and, and_false, false_imp_iff, true_imp_iff, Bool.false_eq_true, ne_eq, not_false_eq_true, not_true_eq_false, implies_true, forall_const, Nat.add_zero, Nat.zero_add, Dr.dec.injEq, Dr.rstC.injEq, Dr.rstR.injEq, Dr.fire.injEq] at e1 e2 e3 e4 e5 e6 e7 e8 e9 e10 e11 e12 e13 e14 e15 e16 e17 e18 e19 e20 e21 e22 e23 e24 e25 e26
    all_goals constructor
    all_goals simp only [upd_same, upd_other, hc, mN, dN, fN, dS, pN, sp, used, isWake, cleared1, cleared2, Cb.onDrv, reduceCtorEq, false_or, or_false, true_or, or_true, true_and, and_true, false_and, and_false, false_imp_iff, true_imp_iff, Bool.false_eq_true, ne_eq, not_false_eq_true, not_true_eq_false, implies_true, forall_const, Nat.add_zero, Nat.zero_add, Dr.dec.injEq, Dr.rstC.injEq, Dr.rstR.injEq, Dr.fire.injEq]
    all_goals first
      | assumption
      | omega
      | (clear h; grind)
      | (simp_all; done)
      | (simp_all; omega)
      | skip
  case neg.pshR =>
    show 1 ≤ s.pushes ∨ pN (s.cb .ctx) = 1 ∨ s.main = .gone
    have q := sp_le (s.cb .ctx)
    have q2 := pN_le (s.cb .ctx)
    have t1 := h.tok; have t2 := h.pre; have t3 := h.dm; have t4 := h.psh
    by_cases hg : s.main = .gone
    · exact Or.inr (Or.inr hg)
    · by_cases hp : 1 ≤ s.linked + s.ringS + dS s.dr
      · exact Or.inl (t4 hp)
      · right; left
        have hmm := t3 hg
        have hz : pN (s.cb .rcv) = 0 := by rw [hc]; rfl
        have hmn : mN s.main = 1 := by
          cases hm : s.main <;> simp [hm, mN, hc] at t2 hg ⊢
        omega

theorem inv_cb_rcv_push {s s' : St} (h : Inv s) {b : Bool} (hc : s.cb .rcv = .run .push b) (hs : step s (.cb .rcv) = some s') : Inv s' := by
  have e1 := h.op; have e2 := h.tok; have e3 := h.once; have e4 := h.zero; have e5 := h.all; have e6 := h.offC
  have e7 := h.offR; have e8 := h.pre; have e9 := h.pre2; have e10 := h.pre3; have e11 := h.onC; have e12 := h.onR
  have e13 := h.cap; have e14 := h.flC; have e15 := h.flR; have e16 := h.psh; have e17 := h.pshW; have e18 := h.pshC
  have e19 := h.pshR; have e20 := h.pfl; have e21 := h.dbl; have e22 := h.uaf; have e23 := h.cn; have e24 := h.cs
  have e25 := h.st; have e26 := h.dm
  simp only [step, stepCb, hc] at hs
  cases hs
  skip
  all_goals
    simp only [hc, mN, dN, fN, dS, pN, sp, used, isWake, cleared1, cleared2, Cb.onDrv, reduceCtorEq, false_or, or_false, true_or, or_true, true_and, and_true, false_and, and_false, false_imp_iff, true_imp_iff, Bool.false_eq_true, ne_eq, not_false_eq_true, not_true_eq_false, implies_true, forall_const, Nat.add_zero, Nat.zero_add, Dr.dec.injEq, Dr.rstC.injEq, Dr.rstR.injEq, Dr.fire.injEq] at e1 e2 e3 e4 e5 e6 e7 e8 e9 e10 e11 e12 e13 e14 e15 e16 e17 e18 e19 e20 e21 e22 e23 e24 e25 e26
    all_goals constructor
    all_goals simp only [upd_same, upd_other, hc, mN, dN, fN, dS, pN, sp, used, isWake, cleared1, cleared2, Cb.onDrv, reduceCtorEq, false_or, or_false, true_or, or_true, true_and, and_true, false_and, and_false, false_imp_iff, true_imp_iff, Bool.false_eq_true, ne_eq, not_false_eq_true, not_true_eq_false, implies_true, forall_const, Nat.add_zero, Nat.zero_add, Dr.dec.injEq, Dr.rstC.injEq, Dr.rstR.injEq, Dr.fire.injEq]
    all_goals first
      | assumption
      | omega
      | (clear h; grind)
      | (simp_all; done)
      | (simp_all; omega)
      | skip
  case refl.dbl =>
    intro hx
    have t1 := h.cap
    have hz : pN (s.cb .rcv) = 1 ∧ sp (s.cb .rcv) = 1 := by rw [hc]; exact ⟨rfl, rfl⟩
    rcases Nat.eq_zero_or_pos s.linked with hl | hl
    · simp only [hl, Nat.lt_irrefl, decide_false, Bool.or_false] at hx
      exact h.dbl hx
    · have q := sp_used (c := s.cb .ctx) (by omega)
      exact ⟨h.flC q, h.flR (by rw [hc]; rfl)⟩

theorem inv_cb_rcv_wake {s s' : St} (h : Inv s) {b : Bool} (hc : s.cb .rcv = .run .wake b) (hs : step s (.cb .rcv) = some s') : Inv s' := by
  have e1 := h.op; have e2 := h.tok; have e3 := h.once; have e4 := h.zero; have e5 := h.all; have e6 := h.offC
  have e7 := h.offR; have e8 := h.pre; have e9 := h.pre2; have e10 := h.pre3; have e11 := h.onC; have e12 := h.onR
  have e13 := h.cap; have e14 := h.flC; have e15 := h.flR; have e16 := h.psh; have e17 := h.pshW; have e18 := h.pshC
  have e19 := h.pshR; have e20 := h.pfl; have e21 := h.dbl; have e22 := h.uaf; have e23 := h.cn; have e24 := h.cs
  have e25 := h.st; have e26 := h.dm
  simp only [step, stepCb, hc] at hs
  cases hs
  skip
  all_goals
    simp only [hc, mN, dN, fN, dS, pN, sp, used, isWake, cleared1, cleared2, Cb.onDrv, reduceCtorEq, false_or, or_false, true_or, or_true, true_and, and_true, false_and, and_false, false_imp_iff, true_imp_iff, Bool.false_eq_true, ne_eq, not_false_eq_true, not_true_eq_false, implies_true, forall_const, Nat.add_zero, Nat.zero_add, Dr.dec.injEq, Dr.rstC.injEq, Dr.rstR.injEq, Dr.fire.injEq] at e1 e2 e3 e4 e5 e6 e7 e8 e9 e10 e11 e12 e13 e14 e15 e16 e17 e18 e19 e20 e21 e22 e23 e24 e25 e26
    all_goals constructor
    all_goals simp only [upd_same, upd_other, hc, mN, dN, fN, dS, pN, sp, used, isWake, cleared1, cleared2, Cb.onDrv, reduceCtorEq, false_or, or_false, true_or, or_true, true_and, and_true, false_and, and_false, false_imp_iff, true_imp_iff, Bool.false_eq_true, ne_eq, not_false_eq_true, not_true_eq_false, implies_true, forall_const, Nat.add_zero, Nat.zero_add, Dr.dec.injEq, Dr.rstC.injEq, Dr.rstR.injEq, Dr.fire.injEq]
    all_goals first
      | assumption
      | omega
      | (clear h; grind)
      | (simp_all; done)
      | (simp_all; omega)
      | skip

theorem inv_step {s s' : St} {a : Act} (h : Inv s) (hs : step s a = some s') : Inv s' := by
  cases a with
  | start => exact inv_start h hs
  | sub0 => exact inv_sub0 h hs
  | sub1 => exact inv_sub1 h hs
  | sub2 => exact inv_sub2 h hs
  | sub3 c => exact inv_sub3 h hs
  | kmain c => exact inv_kmain h hs
  | take => exact inv_take h hs
  | takeC => exact inv_takeC h hs
  | kstop => exact inv_kstop h hs
  | dr =>
    cases hd : s.dr with
    | free => simp [step, stepDr, hd] at hs
    | dec m c => exact inv_dec h hd hs
    | rstC m c => exact inv_rstC h hd hs
    | rstR m c => exact inv_rstR h hd hs
    | fire m c => exact inv_fire h hd hs
  | req x =>
    cases x
    · exact inv_req_ctx h hs
    · exact inv_req_rcv h hs
  | cb x =>
    cases hc : s.cb x with
    | run p b =>
      cases x <;> cases p
      · exact inv_cb_ctx_cas h hc hs
      · exact inv_cb_ctx_push h hc hs
      · exact inv_cb_ctx_wake h hc hs
      · exact inv_cb_rcv_cas h hc hs
      · exact inv_cb_rcv_push h hc hs
      · exact inv_cb_rcv_wake h hc hs
    | _ => simp [step, stepCb, hc] at hs

end Verif.UringOp
