import Verif.Timed.Inv
/-! # `timed_thread_context` — the invariant is kept by `start()` -/
namespace Verif.Timed

theorem countP_done_snoc {log : List Ev} {dead : Nat → Bool} (i : Nat) (o : Outcome) (t : Nat)
    (h : ∀ k, log.countP (Ev.isDone k) = if dead k then 1 else 0) (hd : dead i = false) (k : Nat) :
    (log ++ [Ev.done i o t]).countP (Ev.isDone k) = if upd dead i true k then 1 else 0 := by
  rw [List.countP_append, h k]
  by_cases hk : k = i
  · subst hk; simp [Ev.isDone, hd]
  · simp [Ev.isDone, upd_other _ _ hk, Ne.symm hk]

set_option maxHeartbeats 8000000 in
theorem inv_starter {s s' : St} (h : Inv s) (i : Nat) (b : Bool) (hs : stepStarter s i b = some s') : Inv s' := by
  have hnd : ∀ p, s.sp i = p → p ≠ .sub .notify → p ≠ .sub .sub → p ≠ .done → s.dead i = false := by
    have := h.dead2 i; grind
  have hbd := h.bd
  unfold stepStarter at hs
  split at hs
  case _ hp =>
    have hd := hnd _ hp (by simp) (by simp) (by simp)
    have h1 := h.spPre i (by simp [hp])
    have h2 := h.spEarly i (by simp [hp])
    split at hs <;> cases hs <;> simp only [St.touch]
    · std h i
    · std h i
  case _ hp =>
    have hd := hnd _ hp (by simp) (by simp) (by simp)
    split at hs <;> cases hs
    std h i
  case _ hp =>
    have hd := hnd _ hp (by simp) (by simp) (by simp)
    have h1 := h.spPre i (by simp [hp])
    have h2 := h.refN i h1
    have h3 := h.refNT i h1
    have h4 := h.tsHeap i
    have h5 : s.run.hs ≠ some i := by have := h.heldS i; grind
    have h6 := h.finR i
    split at hs <;> cases hs <;> simp only [St.touch]
    · std h i
    · std h i
  case _ hp =>
    have h1 := (h.spSub i).1 (.inl hp)
    split at hs <;> cases hs
    · std h i
    · std h i
      case flN =>
        refine List.nodup_cons.2 ⟨fun hm => ?_, h.flN⟩
        have := (h.flS i).1 hm
        simp [hp, SPc.counted, Sub.counted] at this
  case _ hp =>
    have hd := hnd _ hp (by simp) (by simp) (by simp)
    have h1 := (h.spSub i).1 (by simp [hp])
    have h2 : s.late i = false := by have := h.lt1 i; grind
    cases hs
    simp only [St.touch]
    std h i
    case qSl =>
      intro k hk
      rw [List.mem_append] at hk
      rcases hk with hk | hk
      · have hne : k ≠ i := by
          rintro rfl
          have := (h.qS k).1 (List.mem_map_of_mem hk)
          simp [h1] at this
        simpa only [upd_other _ _ hne] using h.qSl k hk
      · simp at hk
    case qN =>
      simp only [List.map_append, List.map_cons, List.map_nil]
      refine List.nodup_append.2 ⟨h.qN, by simp, ?_⟩
      intro a ha b hb
      simp only [List.mem_singleton] at hb
      rintro rfl; subst hb
      have := (h.qS i).1 ha
      simp [h1] at this
  case _ hp =>
    have h1 := h.spLink i (by simp [hp, SPc.linking])
    cases hs
    split
    · std h i
      case qSl =>
        intro k hk
        rcases mem_linkCmd hk with hk | hk
        · cases hk; simp [SPc.linking]
        · have := h.qSl k hk; by_cases he : k = i
          · subst he; simp [SPc.linking]
          · simpa only [upd_other _ _ he] using this
      case qTl =>
        intro k hk
        rcases mem_linkCmd hk with hk | hk
        · cases hk
        · exact h.qTl k hk
    · std h i
      case qSl =>
        intro k hk
        rcases mem_linkCmd hk with hk | hk
        · cases hk; simp [SPc.linking]
        · have := h.qSl k hk; by_cases he : k = i
          · subst he; simp [SPc.linking]
          · simpa only [upd_other _ _ he] using this
      case qTl =>
        intro k hk
        rcases mem_linkCmd hk with hk | hk
        · cases hk
        · exact h.qTl k hk
  case _ hp =>
    have h1 := h.spMid i (by simp [hp])
    cases hs
    std h i
  case _ hp =>
    have h1 := h.spMid i (by simp [hp])
    have hm := (h.flS i).2 (by simp [hp, SPc.counted, Sub.counted])
    have hn := h.flN
    cases hs
    std h i
  case _ hp =>
    have hd := hnd _ hp (by simp) (by simp) (by simp)
    have h1 := (h.spSub i).1 (by simp [hp])
    have h2 := h.refL i (by simp [h1, Ref.live])
    have h3 := h.clS i (by simp [hp])
    have h4 : s.run.f ≠ some i := by intro hc; have := (h.finR i hc).2.1; simp [h1] at this
    have h5 : s.cb i ≠ .sub .fin := by intro hc; have := (h.finC i hc).2; simp [h1] at this
    have h6 := h.tsHeap i
    have h7 := h.cbPre i
    have h8 : s.run.hs ≠ some i := by have := h.heldS i; grind
    cases hs
    dsimp only [St.touch]
    by_cases hr : s.ref i = 1
    · have hl : (s.ts i).live = false := by grind
      simp only [hr, if_true]
      std h i
    · have hl : (s.ts i).live = true := by grind
      have hr2 : s.ref i = 2 := by grind
      rw [if_neg hr]
      simp only [hr2]
      std h i
  case _ hp =>
    have hd := hnd _ hp (by simp) (by simp) (by simp)
    have h1 := h.spFin i hp
    have h2 := h.finS i hp
    have h3 := h.clQ (.inl (h.clS i (by simp [hp])))
    have h5 := h.cbPre i
    have h6 := h.alive i
    have h7 : s.run.f ≠ some i := by intro hc; have := (h.finR i hc).2.2.2.1; exact this hp
    split at hs <;> cases hs
    rename_i hc
    have h4 : s.cb i = .off ∨ s.cb i = .armed ∨ s.cb i = .ran := by
      cases hx : s.cb i <;> simp [hx, Cb.running] at hc ⊢
    have hlg := fun o t => countP_done_snoc i o t h.lgC hd
    have hor := fun o t => h.ord.snoc (e := .done i o t) (by simp)
    have h8 := h.lgS
    simp only [St.complete]
    rcases h4 with h4 | h4 | h4 <;> simp only [h4, Cb.unreg]
    · std h i
    · std h i
    · std h i
  case _ hp =>
    have hd := hnd _ hp (by simp) (by simp) (by simp)
    have h1 := h.spPre i (by simp [hp])
    have h4 := (h.finZ i hp).2
    have h5 := h.cbMid i (by simp [h4])
    have h6 := h.tk1 i (.inl h5)
    have h7 := h.refNT i h1
    have h2 : s.run.f ≠ some i := by intro hc; have := (h.finR i hc).2.1; simp [h1] at this
    split at hs <;> cases hs
    have hlg := fun o t => countP_done_snoc i o t h.lgC hd
    have hor := fun o t => h.ord.snoc (e := .done i o t) (by simp)
    have h8 := h.lgS
    simp only [St.complete, h4, Cb.unreg]
    std h i
  all_goals cases hs

end Verif.Timed
