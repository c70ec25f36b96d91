import Verif.Timed.InvStarter
/-! # `timed_thread_context` — the invariant is kept by the stop callback -/
namespace Verif.Timed

set_option maxHeartbeats 8000000 in
theorem inv_stopper {s s' : St} (h : Inv s) (i : Nat) (b : Bool) (hs : stepStopper s i b = some s') : Inv s' := by
  have hnd : ∀ p, s.cb i = p → p ≠ .off → p ≠ .ran → s.dead i = false := by
    have := h.dead1 i; grind
  have hbd := h.bd
  unfold stepStopper at hs
  split at hs
  case _ hp =>
    have hd := hnd _ hp (by simp) (by simp)
    have h1 := h.cbPre i (by simp [hp])
    have h2 := h.refN i
    have h3 := h.refL i
    have h4 := h.refG0 i
    have h5 := h.spMid i
    have h6 := h.spDone i
    have h7 := h.tk1 i
    have h8 := h.finZ i
    have h9 := h.spPre i
    have hb := h.lt1 i
    have hc := h.spSub i
    have hbd := h.spLink i
    have h10 := h.spFin i
    split at hs <;> cases hs <;> simp only [St.touch]
    · have h11 : (s.ss i).live = true := by cases hx : s.ss i <;> simp_all [Ref.live]
      std h i
    · have h11 : s.ss i = .none ∨ s.ss i = .gone := by cases hx : s.ss i <;> simp_all [Ref.live]
      std h i
  case _ hp =>
    have h1 := (h.cbSub i).1 (.inl hp)
    split at hs <;> cases hs
    · std h i
    · std h i
      case flN =>
        refine List.nodup_cons.2 ⟨fun hm => ?_, h.flN⟩
        have := (h.flT i).1 hm
        simp [hp, Cb.counted, Sub.counted] at this
  case _ hp =>
    have hd := hnd _ hp (by simp) (by simp)
    have h1 := (h.cbSub i).1 (by simp [hp])
    cases hs
    simp only [St.touch]
    std h i
    case lt2 =>
      intro k hk hks hkt
      simp only [List.map_append, List.map_cons, List.map_nil]
      by_cases he : k = i
      · subst he
        have hm := (h.qS k).2 hks
        exact (List.singleton_sublist.2 hm).append (List.Sublist.refl [Cmd.stop k])
      · simp only [upd_other _ _ he] at hkt
        exact (h.lt2 k hk hks hkt).trans (List.sublist_append_left _ _)
    case qTl =>
      intro k hk
      rw [List.mem_append] at hk
      rcases hk with hk | hk
      · have hne : k ≠ i := by
          rintro rfl
          have := (h.qT k).1 (List.mem_map_of_mem hk)
          simp [h1] at this
        simpa only [upd_other _ _ hne] using h.qTl k hk
      · simp at hk
    case qN =>
      simp only [List.map_append, List.map_cons, List.map_nil]
      refine List.nodup_append.2 ⟨h.qN, by simp, ?_⟩
      intro a ha b hb
      simp only [List.mem_singleton] at hb
      rintro rfl; subst hb
      have := (h.qT i).1 ha
      simp [h1] at this
  case _ hp =>
    have h1 := h.cbLink i (by simp [hp, Cb.linking])
    cases hs
    split
    · std h i
      case qTl =>
        intro k hk
        rcases mem_linkCmd hk with hk | hk
        · cases hk; simp [Cb.linking]
        · have := h.qTl k hk; by_cases he : k = i
          · subst he; simp [Cb.linking]
          · simpa only [upd_other _ _ he] using this
      case qSl =>
        intro k hk
        rcases mem_linkCmd hk with hk | hk
        · cases hk
        · exact h.qSl k hk
    · std h i
      case qTl =>
        intro k hk
        rcases mem_linkCmd hk with hk | hk
        · cases hk; simp [Cb.linking]
        · have := h.qTl k hk; by_cases he : k = i
          · subst he; simp [Cb.linking]
          · simpa only [upd_other _ _ he] using this
      case qSl =>
        intro k hk
        rcases mem_linkCmd hk with hk | hk
        · cases hk
        · exact h.qSl k hk
  case _ hp =>
    have h1 := h.cbMid i (by simp [hp])
    cases hs
    std h i
  case _ hp =>
    have h1 := h.cbMid i (by simp [hp])
    have h2 := h.cbSS i (by simp [hp, Cb.isSub])
    have hm := (h.flT i).2 (by simp [hp, Cb.counted, Sub.counted])
    have hn := h.flN
    cases hs
    std h i
  case _ hp =>
    have hd := hnd _ hp (by simp) (by simp)
    have h1 := (h.cbSub i).1 (by simp [hp])
    have h0 : s.ss i ≠ .none := by have := h.refNT i; grind
    have h2 := h.refL i
    have h2' := h.refG i
    have h3 := h.clT i (by simp [hp])
    have h4 : s.run.f ≠ some i := by intro hc; have := (h.finR i hc).2.2.1; simp [h1, Ref.live] at this
    have h5 : s.sp i ≠ .sub .fin := by intro hc; have := (h.finS i hc).2.1; simp [h1, Ref.live] at this
    have h7 := h.spPre i
    have h8 : s.run.ht ≠ some i := by have := h.heldT i; grind
    cases hs
    dsimp only [St.touch]
    by_cases hr : s.ref i = 1
    · have hl : s.ss i = .gone := by cases hx : s.ss i <;> simp_all [Ref.live]
      simp only [hr, if_true]
      std h i
    · have hl : (s.ss i).live = true := by cases hx : s.ss i <;> simp_all [Ref.live]
      have hr2 : s.ref i = 2 := by grind
      rw [if_neg hr]
      simp only [hr2]
      std h i
  case _ hp =>
    have hd := hnd _ hp (by simp) (by simp)
    have h1 := h.cbFin i hp
    have h2 := h.finC i hp
    have h3 := h.clQ (.inl (h.clT i (by simp [hp])))
    have h7 : s.run.f ≠ some i := by intro hc; have := (h.finR i hc).2.2.2.2; exact this hp
    have h5 : s.sp i ≠ .sub .fin := by intro hc; have := (h.finS i hc).2.2; exact this hp
    have h6 := h.spPre i
    have h9 := h.spSub i
    have h10 := h.spLink i
    have h11 : s.sp i = .sub .notify ∨ s.sp i = .sub .sub ∨ s.sp i = .done := by
      cases hx : s.sp i with
      | sub p => cases p <;> simp_all [SPc.linking]
      | _ => simp_all
    clear h5 h6 h9 h10
    cases hs
    have hlg := fun o t => countP_done_snoc i o t h.lgC hd
    have hor := fun o t => h.ord.snoc (e := .done i o t) (by simp)
    have h8 := h.lgS
    simp only [St.complete]
    std h i
  all_goals cases hs

end Verif.Timed
