import Verif.Timed.InvStopper
/-! # `timed_thread_context` — the invariant is kept by the run thread -/
namespace Verif.Timed

theorem popHead_eq {q q' : List (Cmd × Bool)} {c : Cmd} (h : popHead q = some (c, q')) : q = (c, true) :: q' := by
  unfold popHead at h
  split at h <;> simp_all

theorem mem_insertBy (lt : Nat → Nat → Bool) (i k : Nat) (l : List Nat) : k ∈ insertBy lt i l ↔ k = i ∨ k ∈ l := by
  induction l with
  | nil => simp [insertBy]
  | cons j l ih => simp only [insertBy]; split <;> simp [ih]; grind

theorem nodup_insertBy (lt : Nat → Nat → Bool) (i : Nat) (l : List Nat) (hn : l.Nodup) (hi : i ∉ l) :
    (insertBy lt i l).Nodup := by
  induction l with
  | nil => simp [insertBy]
  | cons j l ih =>
    simp only [insertBy]
    rw [List.nodup_cons] at hn
    split
    · simp_all
    · rw [List.nodup_cons, mem_insertBy]; simp_all; grind

theorem before_trans {dl num : Nat → Nat} {a b c : Nat} (h1 : before dl num a b = true) (h2 : before dl num b c = true) :
    before dl num a c = true := by
  simp only [before, Bool.or_eq_true, Bool.and_eq_true, Bool.not_eq_true', decide_eq_true_eq, decide_eq_false_iff_not] at *
  omega

theorem pairwise_insertBy {dl num : Nat → Nat} (i : Nat) (l : List Nat)
    (hp : l.Pairwise (fun a b => before dl num a b = true)) (hi : ∀ j ∈ l, num j < num i) :
    (insertBy (before dl num) i l).Pairwise (fun a b => before dl num a b = true) := by
  induction l with
  | nil => simp [insertBy]
  | cons j l ih =>
    simp only [insertBy]
    rw [List.pairwise_cons] at hp
    split
    · rename_i hb
      rw [List.pairwise_cons, List.pairwise_cons]
      refine ⟨fun b hb' => ?_, hp⟩
      rcases List.mem_cons.1 hb' with rfl | hb'
      · exact hb
      · exact before_trans hb (hp.1 b hb')
    · rename_i hb
      rw [List.pairwise_cons]
      refine ⟨fun b hb' => ?_, ih hp.2 (fun k hk => hi k (by simp [hk]))⟩
      rcases (mem_insertBy _ _ _ _).1 hb' with rfl | hb'
      · have := hi j (by simp)
        simp only [before, Bool.or_eq_true, Bool.and_eq_true, Bool.not_eq_true', decide_eq_true_eq, decide_eq_false_iff_not] at *
        omega
      · exact hp.1 b hb'

theorem Ordered.congr {R S : Nat → Nat → Bool} {log : List Ev} (h : Ordered R log)
    (hc : ∀ i j n, Ev.fire i ∈ log → Ev.accept j n ∈ log → S i j = R i j) : Ordered S log := by
  intro pre i post j n hl ha hf hca hne
  rw [hc i j n (by rw [hl]; simp) (by rw [hl]; simp [ha])]
  exact h pre i post j n hl ha hf hca hne

set_option maxHeartbeats 8000000 in
theorem inv_run_release {s s' : St} (h : Inv s) (nul : Bool) (hs : stepRun s nul = some s')
    (hr : s.run.hs ≠ none ∨ s.run.ht ≠ none) : Inv s' := by
  have hbd := h.bd
  have hcl := h.clR
  unfold stepRun at hs
  split at hs
  case _ hp => simp [hp, RPc.hs, RPc.ht] at hr
  case _ hp => simp [hp, RPc.hs, RPc.ht] at hr
  case _ i hp =>
    have h1 := (h.heldS i).2 (by simp [hp, RPc.hs])
    have h2 := (h.heldT i).2 (by simp [hp, RPc.ht])
    have h3 := h.refL i (by simp [h1, Ref.live])
    have h4 : s.ref i = 2 := by simp [h3, h2, Ref.live]
    have h5 : s.dead i = false := by have := h.dead1 i; cases hx : s.dead i <;> simp_all [Ref.live]
    cases hs
    simp only [St.release, St.touch, h4, RPc.cont]
    rw [if_neg (by simp)]
    std h i
    case clR => simp only [hcl, hp]; rfl
  case _ i hp =>
    have h2 := (h.heldT i).2 (by simp [hp, RPc.ht])
    have h3 := h.refL i
    have h3' := h.refG i
    have h0 : s.ss i ≠ .none := by have := h.refNT i; grind
    have h5 : s.dead i = false := by have := h.dead1 i; cases hx : s.dead i <;> simp_all [Ref.live]
    have h6 := h.tk1 i (by simp [h2])
    have h7 : s.sp i ≠ .sub .fin := by intro hc; have := (h.finS i hc).2.1; simp [h2, Ref.live] at this
    have h8 := h.cbFin i
    have h9 := h.cbSub i
    have h10 : s.run.hs ≠ some i := by simp [hp, RPc.hs]
    have h11 := h.heldS i
    cases hs
    simp only [St.release, St.touch, RPc.cont]
    by_cases hr : s.ref i = 1
    · have hl : s.ss i = .gone := by cases hx : s.ss i <;> simp_all [Ref.live]
      simp only [hr, if_true]
      std h i
    · have hl : (s.ss i).live = true := by cases hx : s.ss i <;> simp_all [Ref.live]
      have hr2 : s.ref i = 2 := by grind
      rw [if_neg hr]
      simp only [hr2]
      std h i
      case clR => simp only [hcl, hp]; rfl
  case _ hp => simp [hp, RPc.hs, RPc.ht] at hr
  case _ hp => simp [hp, RPc.hs, RPc.ht] at hr
  case _ i hp =>
    have h1 := (h.heldS i).2 (by simp [hp, RPc.hs])
    have h2 : s.ts i ≠ .held := by intro hc; have := (h.heldT i).1 hc; simp [hp, RPc.ht] at this
    have h3 := h.refL i (by simp [h1, Ref.live])
    have h5 : s.dead i = false := by have := h.dead1 i; cases hx : s.dead i <;> simp_all [Ref.live]
    have h6 := h.tmV i hp
    have h7 : s.cb i ≠ .sub .fin := by intro hc; have := (h.finC i hc).2; simp [h1] at this
    have h8 := h.spFin i
    have h9 := h.spPre i
    have h10 := h.spSub i
    have h11 := h.spLink i
    cases hs
    simp only [St.release, St.touch, RPc.cont]
    by_cases hr : s.ref i = 1
    · have hl : (s.ts i).live = false := by grind
      simp only [hr, if_true]
      std h i
    · have hl : (s.ts i).live = true := by grind
      have hr2 : s.ref i = 2 := by grind
      rw [if_neg hr]
      simp only [hr2]
      std h i
      case clR => simp only [hcl, hp]; rfl
  case _ hp => simp [hp, RPc.hs, RPc.ht] at hr
  case _ hp => simp [hp, RPc.hs, RPc.ht] at hr
  case _ hp => simp [hp, RPc.hs, RPc.ht] at hr
  case _ i hp =>
    have h1 := (h.heldS i).2 (by simp [hp, RPc.hs])
    have h2 : s.ts i ≠ .held := by intro hc; have := (h.heldT i).1 hc; simp [hp, RPc.ht] at this
    have h3 := h.refL i (by simp [h1, Ref.live])
    have h5 : s.dead i = false := by have := h.dead1 i; cases hx : s.dead i <;> simp_all [Ref.live]
    have h6 := h.clQ (.inl (by rw [hcl, hp]; rfl))
    have h7 : s.cb i ≠ .sub .fin := by intro hc; have := (h.finC i hc).2; simp [h1] at this
    have h8 := h.spFin i
    have h9 := h.spPre i
    have h10 := h.spSub i
    have h11 := h.spLink i
    cases hs
    simp only [St.release, St.touch, RPc.cont]
    by_cases hr : s.ref i = 1
    · have hl : (s.ts i).live = false := by grind
      simp only [hr, if_true]
      std h i
    · have hl : (s.ts i).live = true := by grind
      have hr2 : s.ref i = 2 := by grind
      rw [if_neg hr]
      simp only [hr2]
      std h i
  case _ hp => simp [hp, RPc.hs, RPc.ht] at hr
  case _ hp => simp [hp, RPc.hs, RPc.ht] at hr

set_option maxHeartbeats 8000000 in
theorem inv_run_other {s s' : St} (h : Inv s) (nul : Bool) (hs : stepRun s nul = some s')
    (hr : s.run.hs = none ∧ s.run.ht = none) : Inv s' := by
  have hbd := h.bd
  have hcl := h.clR
  have hhs : ∀ k, s.ss k ≠ .held := by intro k hk; have := (h.heldS k).1 hk; simp [hr.1] at this
  have hht : ∀ k, s.ts k ≠ .held := by intro k hk; have := (h.heldT k).1 hk; simp [hr.2] at this
  unfold stepRun at hs
  split at hs
  case _ hp =>
    have hc : s.closed = false := by rw [hcl, hp]; rfl
    cases hs
    std h 0
  case _ o hp =>
    have hc : s.closed = false := by rw [hcl, hp]; rfl
    split at hs
    · split at hs <;> cases hs
      std h 0
    · split at hs
      · rename_i i q hq
        have hq := popHead_eq hq
        have h1 : s.ss i = .queued := (h.qS i).1 (by simp [hq])
        have hd : s.dead i = false := by have := h.dead1 i; cases hx : s.dead i <;> simp_all [Ref.live]
        have h2 := h.qSl i (by simp [hq])
        have hnd := h.qN
        rw [hq] at hnd
        simp only [List.map_cons, List.nodup_cons] at hnd
        have hni : i ∉ s.heap := by intro hm; have := (h.hM i).1 hm; simp [h1] at this
        have hqS := h.qS
        have hqT := h.qT
        rw [hq] at hqS hqT
        simp only [List.map_cons, List.mem_cons] at hqS hqT
        have hC := h.hC
        have hna : ∀ n, Ev.accept i n ∉ s.log := by
          intro n hm; have := (h.acc i n hm).2; simp [h1] at this
        have hnf : Ev.fire i ∉ s.log := by
          intro hm; have := h.ordA i hm; simp [h1] at this
        have hacc := h.acc
        have haccH := h.accH
        have h2l := h.lt2
        rw [hq] at h2l
        cases hs
        simp only [St.touch]
        std h i
        case ord =>
          refine Ordered.snoc (h.ord.congr ?_) (by simp)
          intro a b n ha hb
          have hai : a ≠ i := by rintro rfl; exact hnf ha
          have hbi : b ≠ i := by rintro rfl; exact hna n hb
          simp [before, upd_other _ _ hai, upd_other _ _ hbi]
        case accH =>
          intro k n hm
          rw [List.mem_append] at hm
          simp only [List.mem_append, mem_insertBy]
          rcases hm with hm | hm
          · rcases haccH k n hm with hx | hx | hx <;> simp [hx]
          · simp at hm; simp [hm.1]
        case lgC =>
          intro k; rw [List.countP_append, h.lgC k]; simp [Ev.isDone]
        case hP =>
          refine pairwise_insertBy i s.heap (pairwise_congr h.hP ?_) ?_
          · intro a ha b hb hab
            have hai : a ≠ i := by rintro rfl; exact hni ha
            have hbi : b ≠ i := by rintro rfl; exact hni hb
            simpa [before, upd_other _ _ hai, upd_other _ _ hbi] using hab
          · intro j hj
            have hji : j ≠ i := by rintro rfl; exact hni hj
            simpa [upd_other _ _ hji] using hC j hj
        case hC =>
          intro k hk
          rcases (mem_insertBy _ _ _ _).1 hk with he | hk'
          · simp [he]
          · have hji : k ≠ i := by rintro rfl; exact hni hk'
            have := hC k hk'
            simp only [upd_other _ _ hji]; omega
        case hN => exact nodup_insertBy _ _ _ h.hN hni
        case hM =>
          intro k
          rw [mem_insertBy, h.hM k]
          by_cases hk : k = i
          · subst hk; simp
          · simp [hk, upd_other _ _ hk]
      · rename_i i q hq
        have hq := popHead_eq hq
        have h1 : s.ts i = .queued := (h.qT i).1 (by simp [hq])
        have hd : s.dead i = false := by have := h.dead1 i; cases hx : s.dead i <;> simp_all [Ref.live]
        have h2 := h.qTl i (by simp [hq])
        have hnd := h.qN
        rw [hq] at hnd
        simp only [List.map_cons, List.nodup_cons] at hnd
        have hqS := h.qS
        have hqT := h.qT
        rw [hq] at hqS hqT
        simp only [List.map_cons, List.mem_cons] at hqS hqT
        have h2l := h.lt2
        rw [hq] at h2l
        have hHN := h.hN
        have hhM := h.hM
        have hacc := h.acc
        have haccH := h.accH
        split at hs
        · rename_i hm
          have h3 := (h.hM i).1 hm
          have h4 : ∀ k, k ∈ s.heap.erase i ↔ k ≠ i ∧ k ∈ s.heap := fun k => h.hN.mem_erase_iff
          cases hs
          simp only [St.touch]
          std h i
          case ord => exact h.ord.snoc (by simp)
          case lgC =>
            intro k; rw [List.countP_append, h.lgC k]; simp [Ev.isDone]
        · rename_i hm
          have h3 : s.ss i ≠ .heap := by intro hc; exact hm ((h.hM i).2 hc)
          cases hs
          simp only [St.touch]
          std h i
      · cases hs
  case _ hp => simp [hp, RPc.hs] at hr
  case _ hp => simp [hp, RPc.ht] at hr
  case _ hp =>
    have hc : s.closed = false := by rw [hcl, hp]; rfl
    cases hs
    std h 0
  case _ hp =>
    have hc : s.closed = false := by rw [hcl, hp]; rfl
    split at hs
    · rename_i i l hh
      split at hs <;> cases hs
      · have h1 : s.ss i = .heap := (h.hM i).1 (by simp [hh])
        have hN := h.hN
        have hM := h.hM
        have hP := h.hP
        have hC := h.hC
        have hacc := h.acc
        have haccH := h.accH
        rw [hh] at hN hM hP hC haccH
        simp only [List.nodup_cons, List.pairwise_cons, List.mem_cons] at hN hM hP hC haccH
        std h i
        case ord =>
          refine h.ord.snoc_fire ?_
          intro j n ha hf hc hne
          rcases haccH j n ha with hx | hx | hx | hx
          · exact absurd hx hf
          · exact absurd hx hc
          · exact absurd hx hne
          · exact hP.1 j hx
        case lgC =>
          intro k; rw [List.countP_append, h.lgC k]; simp [Ev.isDone]
      · std h 0
    · cases hs
      std h 0
  case _ hp => simp [hp, RPc.hs] at hr
  case _ hp =>
    have hc : s.closed = false := by rw [hcl, hp]; rfl
    split at hs <;> cases hs
    by_cases hq : s.stopReq = true
    · rw [if_pos hq]
      std h 0
    · rw [if_neg hq]
      std h 0
  case _ hp =>
    have h1 := h.clQ (.inr hp)
    split at hs <;> cases hs
    rename_i h0
    have h2 : s.fl = [] := by have := h.flL; exact List.length_eq_zero_iff.1 (by omega)
    std h 0
  case _ hp =>
    have hc : s.closed = true := by rw [hcl, hp]; rfl
    split at hs
    · rename_i i l hh
      cases hs
      have h1 : s.ss i = .heap := (h.hM i).1 (by simp [hh])
      have hN := h.hN
      have hM := h.hM
      have hP := h.hP
      have hC := h.hC
      have hacc := h.acc
      have haccH := h.accH
      rw [hh] at hN hM hP hC haccH
      simp only [List.nodup_cons, List.pairwise_cons, List.mem_cons] at hN hM hP hC haccH
      std h i
      case ord => exact h.ord.snoc (by simp)
      case lgC =>
        intro k; rw [List.countP_append, h.lgC k]; simp [Ev.isDone]
    · cases hs
      std h 0
  case _ hp => simp [hp, RPc.hs] at hr
  case _ hp => cases hs
  case _ i o k hp =>
    have hf := h.finR i (by simp [hp, RPc.f])
    have hk : k ≠ 0 := by have := h.fin0 i o; grind
    have h5 := h.cbPre i
    have h1 := h.spPre i
    have h9 := h.spSub i
    have h10 := h.spLink i
    have h11 : s.sp i = .sub .notify ∨ s.sp i = .sub .sub ∨ s.sp i = .done := by
      cases hx : s.sp i with
      | sub p => cases p <;> simp_all [SPc.linking]
      | _ => simp_all
    clear h1 h9 h10
    split at hs <;> cases hs
    rename_i hc
    have h4 : s.cb i = .off ∨ s.cb i = .armed ∨ s.cb i = .ran := by
      cases hx : s.cb i <;> simp [hx, Cb.running] at hc ⊢
    have hlg := fun o t => countP_done_snoc i o t h.lgC hf.1
    have hor := fun o t => h.ord.snoc (e := .done i o t) (by simp)
    have h8 := h.lgS
    have h8' := h.lgV
    have h6 := h.tmF i k
    have h6' := h.tmN
    have h7 := h.fSt i k
    have hkk : (RPc.cont i k).hs = none ∧ (RPc.cont i k).ht = none ∧ (RPc.cont i k).f = none ∧
        (RPc.cont i k).dr = (k == 3) ∧ (RPc.cont i k ≠ .close) ∧ (∀ j, RPc.cont i k ≠ .val j) ∧
        (∀ j o l, RPc.cont i k ≠ .fin j o l) := by
      match k, hk with
      | 1, _ => simp [RPc.cont, RPc.hs, RPc.ht, RPc.f, RPc.dr]
      | 2, _ => simp [RPc.cont, RPc.hs, RPc.ht, RPc.f, RPc.dr]
      | 3, _ => simp [RPc.cont, RPc.hs, RPc.ht, RPc.f, RPc.dr]
    obtain ⟨k1, k2, k3, k4, k5, k6, k7⟩ := hkk
    simp only [St.complete]
    generalize RPc.cont i k = r at *
    rcases h4 with h4 | h4 | h4 <;> simp only [h4, Cb.unreg]
    · std h i
    · std h i
    · std h i

theorem inv_reach {s : St} (h : Reachable s) : Inv s := by
  refine Reach.inv Inv inv_init ?_ s h
  intro s a s' hi hs
  match a, hs with
  | .starter i b, hs => exact inv_starter hi i b hs
  | .stopper i b, hs => exact inv_stopper hi i b hs
  | .run b, hs =>
    by_cases hr : s.run.hs = none ∧ s.run.ht = none
    · exact inv_run_other hi b hs hr
    · refine inv_run_release hi b hs ?_
      by_cases h1 : s.run.hs = none
      · exact .inr (fun h2 => hr ⟨h1, h2⟩)
      · exact .inl h1
  | .tick, hs => exact inv_env hi _ (by simp) hs
  | .start i d, hs => exact inv_env hi _ (by simp) hs
  | .reqStop i, hs => exact inv_env hi _ (by simp) hs
  | .cbBegin i, hs => exact inv_env hi _ (by simp) hs
  | .ctxStop, hs => exact inv_env hi _ (by simp) hs

end Verif.Timed
