import Verif.Uring.InvD
namespace Verif.Uring
set_option maxHeartbeats 4000000

theorem invD_wakeOp {s s' : St} {i : Nat} (h : InvD s) (hs : step s (.wakeOp i) = some s') : InvD s' := by
  have ho := invO_step h.o hs
  simp only [step] at hs
  split at hs
  case isFalse => cases hs
  rename_i hc
  cases hs
  all_goals constructor
  all_goals first
    | exact ho | exact h.caps | exact h.infl | exact h.cls | exact h.len | exact h.nw | exact h.mxb | exact h.sqb | exact h.capb
    | exact h.loc | exact h.full | exact h.sub2 | exact h.outm | exact h.outp | exact h.rdy | exact h.pend1 | exact h.pend2
    | exact h.ent | exact h.exi | exact h.fin | exact h.fin2 | exact h.finq | exact h.fsub | exact h.fr | exact h.st | exact h.cw
    | exact h.cw1 | exact h.stp | exact h.waitq | exact h.brk | exact h.ret | exact h.tok | exact h.stok | exact h.bad | exact h.lost
    | skip
  case infl =>
    show s.infl = _
    rw [h.infl]
    refine cnt_congr fun j hj => ?_
    by_cases hji : j = i <;> simp [upd, hji, hc.2, inFlight]
  case tok => intros; exact Or.inl rfl
  case stok => intros; rfl

theorem invD_wakeStop {s s' : St} (h : InvD s) (hs : step s .wakeStop = some s') : InvD s' := by
  have ho := invO_step h.o hs
  simp only [step] at hs
  split at hs
  case isFalse => cases hs
  cases hs
  all_goals constructor
  all_goals first
    | exact ho | exact h.caps | exact h.infl | exact h.cls | exact h.len | exact h.nw | exact h.mxb | exact h.sqb | exact h.capb
    | exact h.loc | exact h.full | exact h.sub2 | exact h.outm | exact h.outp | exact h.rdy | exact h.pend1 | exact h.pend2
    | exact h.ent | exact h.exi | exact h.fin | exact h.fin2 | exact h.finq | exact h.fsub | exact h.fr | exact h.st | exact h.cw
    | exact h.cw1 | exact h.stp | exact h.waitq | exact h.brk | exact h.ret | exact h.tok | exact h.stok | exact h.bad | exact h.lost
    | skip
  case tok => intros; exact Or.inl rfl
  case stok => intros; rfl

theorem invD_wakeFin {s s' : St} (h : InvD s) (hs : step s .wakeFin = some s') : InvD s' := by
  have ho := invO_step h.o hs
  simp only [step] at hs
  split at hs
  case isFalse => cases hs
  cases hs
  all_goals constructor
  all_goals first
    | exact ho | exact h.caps | exact h.infl | exact h.cls | exact h.len | exact h.nw | exact h.mxb | exact h.sqb | exact h.capb
    | exact h.loc | exact h.full | exact h.sub2 | exact h.outm | exact h.outp | exact h.rdy | exact h.pend1 | exact h.pend2
    | exact h.ent | exact h.exi | exact h.fin | exact h.fin2 | exact h.finq | exact h.fsub | exact h.fr | exact h.st | exact h.cw
    | exact h.cw1 | exact h.stp | exact h.waitq | exact h.brk | exact h.ret | exact h.tok | exact h.stok | exact h.bad | exact h.lost
    | skip
  case tok => intros; exact Or.inl rfl
  case stok => intros; rfl

theorem invD_finish {s s' : St} (h : InvD s) (hs : step s .finish = some s') : InvD s' := by
  have ho := invO_step h.o hs
  simp only [step] at hs
  cases hs
  all_goals constructor
  all_goals first
    | exact ho | exact h.caps | exact h.infl | exact h.cls | exact h.len | exact h.nw | exact h.mxb | exact h.sqb | exact h.capb
    | exact h.loc | exact h.full | exact h.sub2 | exact h.outm | exact h.outp | exact h.rdy | exact h.pend1 | exact h.pend2
    | exact h.ent | exact h.exi | exact h.fin | exact h.fin2 | exact h.finq | exact h.fsub | exact h.fr | exact h.st | exact h.cw
    | exact h.cw1 | exact h.stp | exact h.waitq | exact h.brk | exact h.ret | exact h.tok | exact h.stok | exact h.bad | exact h.lost
    | skip
  case exi => intro hx; exact ⟨(h.exi hx).1, fun hb => by simp at hb⟩
  case brk => intro hx; simp at hx
  case ret => intro _ hx; simp at hx

theorem invD_reqStop {s s' : St} (h : InvD s) (hs : step s .reqStop = some s') : InvD s' := by
  have ho := invO_step h.o hs
  simp only [step] at hs
  cases hs
  all_goals constructor
  all_goals first
    | exact ho | exact h.caps | exact h.infl | exact h.cls | exact h.len | exact h.nw | exact h.mxb | exact h.sqb | exact h.capb
    | exact h.loc | exact h.full | exact h.sub2 | exact h.outm | exact h.outp | exact h.rdy | exact h.pend1 | exact h.pend2
    | exact h.ent | exact h.exi | exact h.fin | exact h.fin2 | exact h.finq | exact h.fsub | exact h.fr | exact h.st | exact h.cw
    | exact h.cw1 | exact h.stp | exact h.waitq | exact h.brk | exact h.ret | exact h.tok | exact h.stok | exact h.bad | exact h.lost
    | skip
  case cls => intro hx; exact ⟨(h.cls hx).1, rfl, (h.cls hx).2.2⟩
  case fin => intros; rfl
  case cw1 => intro _ _ hx; simp at hx
  case stp => intros; rfl
  case stok => intro _ hx; simp at hx

theorem invD_reset {s s' : St} (h : InvD s) (hs : step s .reset = some s') : InvD s' := by
  have ho := invO_step h.o hs
  simp only [step] at hs
  split at hs
  case isFalse => cases hs
  rename_i hc
  obtain ⟨hc1, hc2, hc3, hc4⟩ := hc
  have hp := h.pend1 (by rw [hc1]; rfl)
  have htk := h.o.tk (by rw [hc1]; rfl)
  have hl := h.loc (by rw [hc1]; rfl)
  have hlen := h.len
  have hsq : s.sq = [] := List.eq_nil_of_length_eq_zero (by omega)
  have hrg : s.ring = [] := List.eq_nil_of_length_eq_zero (by omega)
  have hcq : s.cq = [] := List.eq_nil_of_length_eq_zero (by omega)
  cases hs
  all_goals constructor
  all_goals first
    | exact ho | exact h.caps | exact h.infl | exact h.cls | exact h.len | exact h.nw | exact h.mxb | exact h.sqb | exact h.capb
    | exact h.loc | exact h.full | exact h.sub2 | exact h.outm | exact h.outp | exact h.rdy | exact h.pend1 | exact h.pend2
    | exact h.ent | exact h.exi | exact h.fin | exact h.fin2 | exact h.finq | exact h.fsub | exact h.fr | exact h.st | exact h.cw
    | exact h.cw1 | exact h.stp | exact h.waitq | exact h.brk | exact h.ret | exact h.tok | exact h.stok | exact h.bad | exact h.lost
    | skip
  case cls => intro hx; simp at hx
  case fin => intro hx; rcases hx with hx | hx <;> simp [hc1, final] at hx
  case fin2 => intro hx; simp [hc1, final] at hx
  case finq => intro hx; simp at hx
  case fr => intro _; exact ⟨hc1, rfl, by simp [cW, hp, htk, hsq, hrg, hcq]⟩
  case st => intro hx; simp [hc1] at hx
  case cw1 => intro hx; simp at hx
  case stp => intro f hx; simp [hc1] at hx
  case ret => intro hx; rcases hx with hx | hx <;> simp [hc1] at hx
  case stok => intro hx; simp at hx

theorem invD_run {s s' : St} {e : Bool} (h : InvD s) (hfr : s.fresh = true) (hs : step s (.run e) = some s') : InvD s' := by
  have ho := invO_step h.o hs
  simp only [step] at hs
  split at hs
  case isFalse => cases hs
  rename_i hc
  obtain ⟨-, hf1, hf2⟩ := h.fr hfr
  have hl := h.loc (by rw [hc]; rfl)
  have hp := h.pend1 (by rw [hc]; rfl)
  have hr := h.rdy (by rw [hc]; rfl)
  have hlen := h.len
  have hex := h.exi (by rw [hc]; rfl)
  have hcap := h.caps
  cases hs
  all_goals constructor
  all_goals first
    | exact ho | exact h.caps | exact h.infl | exact h.cls | exact h.len | exact h.nw | exact h.mxb | exact h.sqb | exact h.capb
    | exact h.loc | exact h.full | exact h.sub2 | exact h.outm | exact h.outp | exact h.rdy | exact h.pend1 | exact h.pend2
    | exact h.ent | exact h.exi | exact h.fin | exact h.fin2 | exact h.finq | exact h.fsub | exact h.fr | exact h.st | exact h.cw
    | exact h.cw1 | exact h.stp | exact h.waitq | exact h.brk | exact h.ret | exact h.tok | exact h.stok | exact h.bad | exact h.lost
    | skip
  case cls => intro hx; simp [hf1] at hx
  case capb => intro _; show s.total + s.mx ≤ s.cap; omega
  case loc => intro _; exact hl
  case full => intro hx; simp [inSub] at hx
  case sub2 => intro f hx; simp at hx
  case outp => intro f hx; simp at hx
  case rdy => intro _; exact hr
  case pend1 => intro _; exact hp
  case pend2 => intro hx; simp at hx
  case ent => intro hx; simp at hx
  case exi => intro hx; simp [exiting, final] at hx
  case fin => intro hx; simp [final] at hx
  case fin2 => intro hx; simp [final] at hx
  case finq => intro hx; simp [hf1] at hx
  case fsub => intro hx; simp [final] at hx
  case fr => intro hx; simp at hx
  case st => intro _; exact ⟨hf1, hf2⟩
  case cw1 => intro _ hx; simp at hx
  case stp => intro f hx; simp at hx
  case waitq => intro hx; simp at hx
  case brk => intro hx; have := h.brk; simp_all
  case ret => intro hx; simp at hx
  case tok => intro hx; simp [willPop] at hx

theorem invD_intr {s s' : St} (h : InvD s) (hs : step s .intr = some s') : InvD s' := by
  have ho := invO_step h.o hs
  simp only [step] at hs
  split at hs
  case isFalse => cases hs
  rename_i hc
  have hl := h.loc (by rw [hc]; rfl)
  have hr := h.rdy (by rw [hc]; rfl)
  have hcl : s.closed = false := by
    rcases hx : s.closed with _ | _
    · rfl
    · have := (h.cls hx).2.2; simp [hc, exiting, final] at this
  cases hs
  all_goals constructor
  all_goals first
    | exact ho | exact h.caps | exact h.infl | exact h.cls | exact h.len | exact h.nw | exact h.mxb | exact h.sqb | exact h.capb
    | exact h.loc | exact h.full | exact h.sub2 | exact h.outm | exact h.outp | exact h.rdy | exact h.pend1 | exact h.pend2
    | exact h.ent | exact h.exi | exact h.fin | exact h.fin2 | exact h.finq | exact h.fsub | exact h.fr | exact h.st | exact h.cw
    | exact h.cw1 | exact h.stp | exact h.waitq | exact h.brk | exact h.ret | exact h.tok | exact h.stok | exact h.bad | exact h.lost
    | skip
  case cls => intro hx; simp [hcl] at hx
  case capb => intro _; exact h.capb (by rw [hc]; rfl)
  case loc => intro _; exact hl
  case full => intro hx; simp [inSub] at hx
  case sub2 => intro f hx; simp at hx
  case outp => intro f hx; simp at hx
  case rdy => intro _; exact hr
  case pend1 => intro hx; simp [noPend] at hx
  case pend2 => intro hx; simp at hx
  case ent => intro hx; simp at hx
  case exi => intro hx; simp [exiting, final] at hx
  case fin => intro hx; simp [final] at hx
  case fin2 => intro hx; simp [final] at hx
  case finq => intro hx; simp [hcl] at hx
  case fsub => intro hx; simp [final] at hx
  case fr => intro hx; have := (h.fr hx).1; simp [hc] at this
  case st => intro hx; simp at hx
  case cw1 => intro hx _ hy; exact h.cw1 hx (by simp [hc]) hy
  case stp => intro f hx; simp at hx
  case waitq => intro hx; simp at hx
  case ret => intro hx; simp at hx
  case tok => intro hx; simp [willPop] at hx

theorem invD_enter {s s' : St} {k : Nat} (h : InvD s) (hs : step s (.enter k) = some s') : InvD s' := by
  have ho := invO_step h.o hs
  simp only [step] at hs
  split at hs
  case isFalse => cases hs
  rename_i hc
  obtain ⟨hc, hk, hk2⟩ := hc
  have hl := h.loc (by rw [hc]; rfl)
  have hr := h.rdy (by rw [hc]; rfl)
  have hlen := h.len
  have hnw := h.nw
  have hsqb := h.sqb
  have htd := count_take_drop (l := s.sq) k .wake
  have hcl : s.closed = false := by
    rcases hx : s.closed with _ | _
    · rfl
    · have := (h.cls hx).2.2; simp [hc, exiting, final] at this
  have hcw : s.pend.count .wake + s.tasks.count .wake + s.out.count .wake + (s.sq.drop k).count .wake +
      (s.ring ++ s.sq.take k).count .wake = cW' s := by
    simp only [cW', List.count_append]; omega
  have hcw2 : s.pend.count .wake + s.tasks.count .wake + s.out.count .wake + (s.sq.drop k).count .wake +
      (s.ring ++ s.sq.take k).count .wake + s.cq.count .wake = cW s := by
    simp only [cW, List.count_append]; omega
  have hpc' : (if k = s.sq.length then Pc.wait else Pc.cq .after) = .wait ∧ k = s.sq.length ∨
      (if k = s.sq.length then Pc.wait else Pc.cq .after) = .cq .after := by
    split
    · exact Or.inl ⟨rfl, by assumption⟩
    · exact Or.inr rfl
  generalize (if k = s.sq.length then Pc.wait else Pc.cq .after) = pc' at *
  cases hs
  all_goals constructor
  all_goals first
    | exact ho | exact h.caps | exact h.infl | exact h.cls | exact h.len | exact h.nw | exact h.mxb | exact h.sqb | exact h.capb
    | exact h.loc | exact h.full | exact h.sub2 | exact h.outm | exact h.outp | exact h.rdy | exact h.pend1 | exact h.pend2
    | exact h.ent | exact h.exi | exact h.fin | exact h.fin2 | exact h.finq | exact h.fsub | exact h.fr | exact h.st | exact h.cw
    | exact h.cw1 | exact h.stp | exact h.waitq | exact h.brk | exact h.ret | exact h.tok | exact h.stok | exact h.bad | exact h.lost
    | skip
  case cls => intro hx; simp [hcl] at hx
  case len =>
    show s.total + s.nsub = (s.sq.drop k).length + (s.ring ++ s.sq.take k).length + s.cq.length
    simp only [List.length_append, List.length_drop, List.length_take]; omega
  case nw =>
    show s.newly - k + s.nsub = (s.sq.drop k).length
    simp only [List.length_drop]; omega
  case sqb =>
    show (s.sq.drop k).length + s.mx ≤ s.slots + s.nsub
    simp only [List.length_drop]; omega
  case capb => intro _; exact h.capb (by rw [hc]; rfl)
  case loc => intro _; exact hl
  case full => intro hx; rcases hpc' with hq | hq <;> simp [inSub, hq] at hx
  case sub2 => intro f hx; rcases hpc' with hq | hq <;> simp [hq] at hx
  case outp => intro f hx; rcases hpc' with hq | hq <;> simp [hq] at hx
  case rdy => intro _; exact hr
  case pend1 => intro hx; rcases hpc' with hq | hq <;> simp [noPend, hq] at hx
  case pend2 => intro _; exact h.pend2 (by simp [hc])
  case ent => intro _; exact h.ent (by simp [hc])
  case exi => intro hx; rcases hpc' with hq | hq <;> simp [exiting, final, hq] at hx
  case fin => intro hx; rcases hpc' with hq | hq <;> simp [final, hq] at hx
  case fin2 => intro hx; rcases hpc' with hq | hq <;> simp [final, hq] at hx
  case finq => intro hx; simp [hcl] at hx
  case fsub => intro hx; rcases hpc' with hq | hq <;> simp [final, hq] at hx
  case fr => intro hx; have := (h.fr hx).1; simp [hc] at this
  case st => intro hx; rcases hpc' with hq | hq <;> simp [hq] at hx
  case cw => exact Nat.le_trans (Nat.le_of_eq hcw2) h.cw
  case cw1 => intro hx _ hy; exact hcw2.trans (h.cw1 hx (by simp [hc]) hy)
  case stp => intro f hx; rcases hpc' with hq | hq <;> simp [hq] at hx
  case waitq =>
    intro hx
    rcases hpc' with hq | hq
    · show s.sq.drop k = []
      rw [hq.2]; simp
    · simp [hq] at hx
  case ret => intro hx; rcases hpc' with hq | hq <;> simp [hq] at hx
  case tok => intro _; exact h.tok (by simp [hc, willPop])
  case stok => intro hx hy hz; exact h.stok hx hy (hcw ▸ hz)

theorem invD_kop {s s' : St} {i : Nat} (h : InvD s) (hs : step s (.kop i) = some s') : InvD s' := by
  have ho := invO_step h.o hs
  simp only [step] at hs
  split at hs
  case isFalse => cases hs
  rename_i hc
  have hlen := h.len
  have hle := List.length_erase_of_mem hc
  have hp : 0 < s.ring.length := List.length_pos_of_mem hc
  have hce : (s.ring.erase (.op i)).count .wake = s.ring.count .wake := List.count_erase_of_ne (by simp)
  have hcw : s.pend.count .wake + s.tasks.count .wake + s.out.count .wake + s.sq.count .wake +
      (s.ring.erase (.op i)).count .wake + (s.cq ++ [T.op i]).count .wake = cW s := by
    rw [hce]; simp [cW]
  have hcw2 : s.pend.count .wake + s.tasks.count .wake + s.out.count .wake + s.sq.count .wake +
      (s.ring.erase (.op i)).count .wake = cW' s := by
    rw [hce]; rfl
  cases hs
  all_goals constructor
  all_goals first
    | exact ho | exact h.caps | exact h.infl | exact h.cls | exact h.len | exact h.nw | exact h.mxb | exact h.sqb | exact h.capb
    | exact h.loc | exact h.full | exact h.sub2 | exact h.outm | exact h.outp | exact h.rdy | exact h.pend1 | exact h.pend2
    | exact h.ent | exact h.exi | exact h.fin | exact h.fin2 | exact h.finq | exact h.fsub | exact h.fr | exact h.st | exact h.cw
    | exact h.cw1 | exact h.stp | exact h.waitq | exact h.brk | exact h.ret | exact h.tok | exact h.stok | exact h.bad | exact h.lost
    | skip
  case len =>
    show s.total + s.nsub = s.sq.length + (s.ring.erase (.op i)).length + (s.cq ++ [T.op i]).length
    simp only [List.length_append, List.length_cons, List.length_nil]; omega
  case fr => intro hx; exact ⟨(h.fr hx).1, (h.fr hx).2.1, hcw.trans (h.fr hx).2.2⟩
  case st => intro hx; exact ⟨(h.st hx).1, hcw.trans (h.st hx).2⟩
  case cw => exact Nat.le_trans (Nat.le_of_eq hcw) h.cw
  case cw1 => intro hx hz hy; exact hcw.trans (h.cw1 hx hz hy)
  case tok =>
    intro hx j hj hq
    rcases h.tok hx j hj hq with he | he
    · exact Or.inl he
    · exact Or.inr (List.mem_append_left _ he)
  case stok => intro hx hy hz; exact h.stok hx hy (hcw2 ▸ hz)

theorem invD_kwake {s s' : St} (h : InvD s) (hs : step s .kwake = some s') : InvD s' := by
  have ho := invO_step h.o hs
  simp only [step] at hs
  split at hs
  case isFalse => cases hs
  rename_i hc
  obtain ⟨hc, -⟩ := hc
  have hlen := h.len
  have hle := List.length_erase_of_mem hc
  have hp : 0 < s.ring.length := List.length_pos_of_mem hc
  have hce : (s.ring.erase .wake).count .wake = s.ring.count .wake - 1 := List.count_erase_self
  have hcp : 0 < s.ring.count .wake := List.count_pos_iff.2 hc
  have hcw : s.pend.count .wake + s.tasks.count .wake + s.out.count .wake + s.sq.count .wake +
      (s.ring.erase .wake).count .wake + (s.cq ++ [T.wake]).count .wake = cW s := by
    rw [hce]; simp [cW]; omega
  have hc1 := h.cw
  have hcw2 : s.pend.count .wake + s.tasks.count .wake + s.out.count .wake + s.sq.count .wake +
      (s.ring.erase .wake).count .wake = 0 := by
    rw [hce]; simp only [cW] at hc1; omega
  cases hs
  all_goals constructor
  all_goals first
    | exact ho | exact h.caps | exact h.infl | exact h.cls | exact h.len | exact h.nw | exact h.mxb | exact h.sqb | exact h.capb
    | exact h.loc | exact h.full | exact h.sub2 | exact h.outm | exact h.outp | exact h.rdy | exact h.pend1 | exact h.pend2
    | exact h.ent | exact h.exi | exact h.fin | exact h.fin2 | exact h.finq | exact h.fsub | exact h.fr | exact h.st | exact h.cw
    | exact h.cw1 | exact h.stp | exact h.waitq | exact h.brk | exact h.ret | exact h.tok | exact h.stok | exact h.bad | exact h.lost
    | skip
  case len =>
    show s.total + s.nsub = s.sq.length + (s.ring.erase .wake).length + (s.cq ++ [T.wake]).length
    simp only [List.length_append, List.length_cons, List.length_nil]; omega
  case fr => intro hx; exact ⟨(h.fr hx).1, (h.fr hx).2.1, hcw.trans (h.fr hx).2.2⟩
  case st => intro hx; exact ⟨(h.st hx).1, hcw.trans (h.st hx).2⟩
  case cw => exact Nat.le_trans (Nat.le_of_eq hcw) h.cw
  case cw1 => intro hx hz hy; exact hcw.trans (h.cw1 hx hz hy)
  case tok => intro hx j hj hq; exact Or.inr (by simp)
  case stok => intro hx hy hz; exact absurd hcw2 (Nat.ne_of_gt hz)

theorem invD_startOp {s s' : St} {i : Nat} (h : InvD s) (hs : step s (.start i) = some s') : InvD s' := by
  have ho := invO_step h.o hs
  simp only [step] at hs
  split at hs
  case isFalse => cases hs
  rename_i hc
  have hops := h.o.ops i
  have hreq : s.req.count i = 0 := by
    simp only [hc.2, accepted, cI] at hops; omega
  have hnm : i ∉ s.req := List.count_eq_zero.1 hreq
  split at hs
  all_goals rename_i hcl
  all_goals cases hs
  all_goals try simp only [finOp] at ho ⊢
  all_goals constructor
  all_goals first
    | exact ho | exact h.caps | exact h.infl | exact h.cls | exact h.len | exact h.nw | exact h.mxb | exact h.sqb | exact h.capb
    | exact h.loc | exact h.full | exact h.sub2 | exact h.outm | exact h.outp | exact h.rdy | exact h.pend1 | exact h.pend2
    | exact h.ent | exact h.exi | exact h.fin | exact h.fin2 | exact h.finq | exact h.fsub | exact h.fr | exact h.st | exact h.cw
    | exact h.cw1 | exact h.stp | exact h.waitq | exact h.brk | exact h.ret | exact h.tok | exact h.stok | exact h.bad | exact h.lost
    | skip
  case isTrue.refl.infl =>
    show s.infl = cnt (fun j => inFlight (upd s.opc i .ret j)) s.n
    rw [h.infl]
    refine cnt_congr fun j hj => ?_
    by_cases hji : j = i <;> simp [upd, hji, hc.2, inFlight]
  case isTrue.refl.tok =>
    intro hx j hj hq
    have hji : j ≠ i := fun e => hnm (e ▸ hj)
    exact h.tok hx j hj (by simpa [upd, hji] using hq)
  case isFalse.refl.infl =>
    show s.infl + 1 = cnt (fun j => inFlight (upd s.opc i .acc j)) s.n
    rw [h.infl]
    refine (cnt_flip hc.1 (by simp [hc.2, inFlight]) (by simp [upd, inFlight]) fun j hj => ?_).symm
    simp [upd, hj]
  case isFalse.refl.cls => intro hx; exact absurd hx hcl
  case isFalse.refl.tok =>
    intro hx j hj hq
    have hji : j ≠ i := fun e => hnm (e ▸ hj)
    exact h.tok hx j hj (by simpa [upd, hji] using hq)

theorem invD_push {s s' : St} {i : Nat} (h : InvD s) (hs : step s (.push i) = some s') : InvD s' := by
  have ho := invO_step h.o hs
  simp only [step] at hs
  split at hs
  case isFalse => cases hs
  rename_i hc
  have hinf : 0 < s.infl := by
    rw [h.infl]
    rcases Nat.eq_zero_or_pos (cnt (fun i => inFlight (s.opc i)) s.n) with h0 | h0
    · have := cnt_zero_iff.1 h0 i hc.1
      simp [hc.2, inFlight] at this
    · exact h0
  have hcl : s.closed = false := by
    rcases hx : s.closed with _ | _
    · rfl
    · have := (h.cls hx).1; omega
  cases hs
  all_goals constructor
  all_goals first
    | exact ho | exact h.caps | exact h.infl | exact h.cls | exact h.len | exact h.nw | exact h.mxb | exact h.sqb | exact h.capb
    | exact h.loc | exact h.full | exact h.sub2 | exact h.outm | exact h.outp | exact h.rdy | exact h.pend1 | exact h.pend2
    | exact h.ent | exact h.exi | exact h.fin | exact h.fin2 | exact h.finq | exact h.fsub | exact h.fr | exact h.st | exact h.cw
    | exact h.cw1 | exact h.stp | exact h.waitq | exact h.brk | exact h.ret | exact h.tok | exact h.stok | exact h.bad | exact h.lost
    | skip
  case infl =>
    show s.infl = cnt (fun j => inFlight (upd s.opc i .pushed j)) s.n
    rw [h.infl]
    refine cnt_congr fun j hj => ?_
    by_cases hji : j = i <;> simp [upd, hji, hc.2, inFlight]
  case finq => intro hx; simp [hcl] at hx
  case tok =>
    intro hx j hj hq
    have hji : j ≠ i := fun e => by subst e; simp [upd] at hq
    simp only [List.mem_cons, hji, false_or] at hj
    exact h.tok hx j hj (by simpa [upd, hji] using hq)

theorem invD_dec {s s' : St} {i : Nat} (h : InvD s) (hs : step s (.dec i) = some s') : InvD s' := by
  have ho := invO_step h.o hs
  simp only [step] at hs
  split at hs
  case isFalse => cases hs
  rename_i hc
  have hfl : cnt (fun j => inFlight (s.opc j)) s.n = cnt (fun j => inFlight (upd s.opc i .wk j)) s.n + 1 := by
    refine cnt_flip hc.1 (by simp [upd, inFlight]) (by simp [hc.2, inFlight]) fun j hj => ?_
    simp [upd, hj]
  have hinf := h.infl
  cases hs
  all_goals constructor
  all_goals first
    | exact ho | exact h.caps | exact h.infl | exact h.cls | exact h.len | exact h.nw | exact h.mxb | exact h.sqb | exact h.capb
    | exact h.loc | exact h.full | exact h.sub2 | exact h.outm | exact h.outp | exact h.rdy | exact h.pend1 | exact h.pend2
    | exact h.ent | exact h.exi | exact h.fin | exact h.fin2 | exact h.finq | exact h.fsub | exact h.fr | exact h.st | exact h.cw
    | exact h.cw1 | exact h.stp | exact h.waitq | exact h.brk | exact h.ret | exact h.tok | exact h.stok | exact h.bad | exact h.lost
    | skip
  case infl =>
    show s.infl - 1 = cnt (fun j => inFlight (upd s.opc i .wk j)) s.n
    omega
  case cls => intro hx; exact ⟨by have := (h.cls hx).1; show s.infl - 1 = 0; omega, (h.cls hx).2⟩
  case tok =>
    intro hx j hj hq
    have hji : j ≠ i := fun e => by subst e; simp [upd] at hq
    exact h.tok hx j hj (by simpa [upd, hji] using hq)

end Verif.Uring
