import Verif.MergeEach.Inv2
/-! # The second invariant: remaining steps -/
namespace Verif.MergeEach

set_option maxHeartbeats 4000000

/-- Steps that change none of the fields the second invariant talks about. -/
theorem Inv2.same {s s' : St} (h : Inv2 s) (h1 : s'.pc = s.pc) (h2 : s'.gone = s.gone) (h3 : s'.acked = s.acked)
    (h4 : s'.lost = s.lost) (h5 : s'.kind = s.kind) (h6 : s'.dangling = s.dangling) (h7 : s'.sig = s.sig)
    (h8 : s'.reports = s.reports) (h9 : s'.outerStopped = s.outerStopped) : Inv2 s' := by
  constructor
  · rw [h2, h3]; exact h.go
  · rw [h4, h5, h3, h1]; exact h.lo
  · rw [h5, h3, h1]; exact h.sq
  · rw [h6, h8, h5, h1]; exact h.dg
  · rw [h1, h7]; exact h.s1
  · rw [h8, h7]; exact h.s2
  · rw [h7, h1, h8]; exact h.s3
  · rw [h1, h7]; exact h.s4
  · rw [h9, h7]; exact h.s5
  · rw [h7, h1]; exact h.s6

theorem inv2_step {s s' : St} (a : Act) (hi : Inv s) (h2 : Inv2 s) (hs : step s a = some s') : Inv2 s' := by
  cases a with
  | start =>
    simp only [step, stepStart] at hs
    split at hs
    · cases hs
    rename_i hb
    simp only [Bool.not_eq_true] at hb
    have ha := (hi.pre hb).1
    have hpc : ∀ j, s.pc j = .absent := by
      intro j
      by_cases h : s.pc j = .absent
      · exact h
      · have := hi.mem h; rw [ha] at this; cases this
    split at hs <;> cases hs
    · exact h2.same rfl rfl rfl rfl rfl rfl rfl rfl rfl
    · have hsg := h2.s4 0 (by simp [hpc 0, Pc.early])
      have hl : 0 ∉ s.lost := fun h => (h2.lo 0 h).2.2.2 (hpc 0)
      exact inv2_gen (i := 0) (p' := .live) h2 rfl h2.go (fun _ h _ => h) (fun h => absurd h hl) (fun _ _ => rfl)
        (fun _ h => upd_other _ _ h) (by simp) (fun h => .inl h) (.inr (hpc 0)) (by simp) (fun _ _ => rfl)
        (by simp [Pc.rp]) (fun _ h => h) (fun _ h => .inl h) (fun _ h => h) (by simp [hsg]) (by simp [Pc.early, hsg]) h2.s5
  | nextSeq i =>
    simp only [step, stepNextSeq] at hs
    split at hs <;> cases hs
    rename_i h
    have hsg := h2.s4 i (by simp [h.2.2, Pc.early])
    have hl : i ∉ s.lost := fun hh => (h2.lo i hh).2.2.2 h.2.2
    exact inv2_gen (i := i) (p' := .given) h2 rfl h2.go (fun _ h _ => h) (fun h => absurd h hl) (fun _ _ => rfl)
        (fun _ h => upd_other _ _ h) (by simp [Pc.past, Pc.rp, Pc.pS]) (fun h => .inl h) (.inr h.2.2) (by simp) (fun _ _ => rfl)
        (by simp [Pc.rp]) (fun _ h => h) (fun _ h => .inl h) (fun _ h => h) (by simp [hsg]) (by simp [Pc.early, hsg]) h2.s5
  | nextVal j i =>
    simp only [step, stepNextVal] at hs
    split at hs <;> cases hs
    rename_i h
    have hp := h.2.2.2.2
    have hsg := h2.s4 i (by simp [hp, Pc.early])
    have hl : i ∉ s.lost := fun hh => (h2.lo i hh).2.2.2 hp
    exact inv2_gen (i := i) (p' := .given) h2 rfl h2.go (fun _ h _ => h) (fun h => absurd h hl) (fun _ _ => rfl)
        (fun _ h => upd_other _ _ h) (by simp [Pc.past, Pc.rp, Pc.pS]) (fun h => .inl h) (.inr hp) (by simp) (fun _ _ => rfl)
        (by simp [Pc.rp]) (fun _ h => h) (fun _ h => .inl h) (fun _ h => h) (by simp [hsg]) (by simp [Pc.early, hsg]) h2.s5
  | «begin» i =>
    simp only [step, stepBegin] at hs
    split at hs
    · rename_i h
      have hsg := h2.s4 i (by simp [h.1, Pc.early])
      have hl : i ∉ s.lost := fun hh => by have := (h2.lo i hh).2.2.1; rw [h.1] at this; simp [Pc.owes] at this
      split at hs <;> cases hs
      · exact inv2_gen (i := i) (p' := .live0) h2 rfl h2.go (fun _ h _ => h) (fun h => absurd h hl) (fun _ _ => rfl)
          (fun _ h => rfl) (by simp [Pc.past, Pc.rp, Pc.pS]) (fun h => .inl h) (.inl rfl) (by simp) (fun _ _ => rfl)
          (by simp [Pc.rp]) (fun _ h => h) (fun _ h => .inl h) (fun _ h => h) (by simp [hsg]) (by simp [Pc.early, hsg]) h2.s5
      · exact inv2_gen (i := i) (p' := .live) h2 rfl h2.go (fun _ h _ => h) (fun h => absurd h hl) (fun _ _ => rfl)
          (fun _ h => rfl) (by simp [Pc.past, Pc.rp, Pc.pS]) (fun h => .inl h) (.inl rfl) (by simp) (fun _ _ => rfl)
          (by simp [Pc.rp]) (fun _ h => h) (fun _ h => .inl h) (fun _ h => h) (by simp [hsg]) (by simp [Pc.early, hsg]) h2.s5
    · cases hs
  | ack i =>
    have key : i ∉ s.lost → (s.kind i = .seq → (s.pc i).past = true) →
        Inv2 { s with acked := upd s.acked i true } := by
      intro hl hq
      refine ⟨?_, ?_, ?_, h2.dg, h2.s1, h2.s2, h2.s3, h2.s4, h2.s5, h2.s6⟩
      · intro j h
        by_cases hji : j = i
        · subst hji; simp
        · dsimp only; rw [upd_other _ _ hji]; exact h2.go j h
      · intro j h
        have hji : j ≠ i := by rintro rfl; exact hl h
        dsimp only; rw [upd_other _ _ hji]; exact h2.lo j h
      · intro j hk h
        by_cases hji : j = i
        · subst hji; exact hq hk
        · dsimp only at h; rw [upd_other _ _ hji] at h; exact h2.sq j hk h
    simp only [step, stepAck] at hs
    split at hs
    · rename_i o ho
      split at hs <;> cases hs
      exact key (fun h => by have := (h2.lo i h).1; rw [ho] at this; cases this) (by simp [ho])
    · split at hs <;> cases hs
      rename_i h
      exact key (fun hh => by have := (h2.lo i hh).2.2.1; rw [h.2] at this; simp [Pc.owes] at this)
        (by simp [h.2, Pc.past, Pc.rp, Pc.pS])
    · cases hs
  | destroy i =>
    simp only [step, stepDestroy] at hs
    split at hs <;> cases hs
    rename_i h
    refine ⟨?_, h2.lo, h2.sq, h2.dg, h2.s1, h2.s2, h2.s3, h2.s4, h2.s5, h2.s6⟩
    intro j hj
    by_cases hji : j = i
    · subst hji; exact h.1
    · dsimp only at hj; rw [upd_other _ _ hji] at hj; exact h2.go j hj
  | complete i sig =>
    simp only [step, stepComplete] at hs
    have hkn := hi.kn i
    split at hs
    · rename_i hp
      have hsg := h2.s4 i (by simp [hp, Pc.early])
      have hm := hi.mem (j := i) (by simp [hp])
      have hk : s.kind i = .seq := by have := hi.pk i; rw [hp] at this; simpa [Pc.ok] using this
      have h0 : i ≠ 0 := by intro h; rw [← hkn hm, hk] at h; cases h
      have hna : s.acked i = false := by
        cases h : s.acked i
        · rfl
        · exact absurd hp (hi.nak i h).1
      have hl : i ∉ s.lost := fun hh => by have := (h2.lo i hh).2.2.1; rw [hp] at this; simp [Pc.owes] at this
      split at hs
      · cases hs
        exact inv2_gen (i := i) (p' := .live) h2 rfl h2.go (fun _ h _ => h) (fun h => absurd h hl) (fun _ _ => rfl)
          (fun _ h => rfl) (by simp [Pc.past, Pc.rp, Pc.pS]) (fun h => .inl h) (.inl rfl) (by simp) (fun _ _ => rfl)
          (by simp [Pc.rp]) (fun _ h => h) (fun _ h => .inl h) (fun _ h => h) (by simp [hsg]) (by simp [Pc.early, hsg]) h2.s5
      · rename_i hv
        cases hs
        cases sig with
        | value => exact absurd rfl hv
        | error e =>
          refine inv2_gen (i := i) (p' := .run (progSeq0 (.error e))) h2 rfl h2.go (fun j h h' => by simpa [h'] using h)
            (fun _ => ⟨hk, hna, by simp [Pc.owes, progSeq0, Op.isNote], by simp⟩) (fun _ _ => rfl)
            (fun _ h => rfl) (by simp [hna]) (fun h => .inl h) (.inl rfl) (by simp) (fun _ h => upd_other _ _ h)
            (by simp [Pc.rp, progSeq0, repOf]) (fun _ h => h) (fun _ h => .inl h) (by simp [hsg])
            (by simp [Pc.rp, progSeq0, repOf]) (by simp [Pc.early]) ?_
          dsimp only; rw [upd_other _ _ (Ne.symm h0)]; exact h2.s5
        | stopped =>
          refine inv2_gen (i := i) (p' := .run (progSeq0 .stopped)) h2 rfl h2.go (fun j h h' => by simpa [h'] using h)
            (fun _ => ⟨hk, hna, by simp [Pc.owes, progSeq0, Op.isNote], by simp⟩) (fun _ _ => rfl)
            (fun _ h => rfl) (by simp [hna]) (fun h => .inl h) (.inl rfl) (by simp) (fun _ h => upd_other _ _ h)
            (by simp [Pc.rp, progSeq0, repOf]) (fun _ h => h) (fun _ h => .inl h) (by simp [hsg])
            (by simp) (by simp [Pc.early]) ?_
          dsimp only; rw [upd_other _ _ (Ne.symm h0)]; exact h2.s5
    · rename_i hp
      have hsg := h2.s4 i (by simp [hp, Pc.early])
      have hm := hi.mem (j := i) (by simp [hp])
      have hna : s.acked i = false := by
        cases h : s.acked i
        · rfl
        · exact absurd hp (hi.nak i h).2.1
      have hl : i ∉ s.lost := fun hh => by have := (h2.lo i hh).2.2.1; rw [hp] at this; simp [Pc.owes] at this
      split at hs
      · rename_i hk
        have h0 : i = 0 := (hkn hm).1 hk
        split at hs <;> cases hs
        subst h0
        have hlv : s.outerStopped = false := hi.lv hp
        cases sig <;>
          exact inv2_gen (i := 0) (p' := .run (progOuter _)) h2 rfl h2.go (fun j h h' => h)
            (fun h => absurd h hl) (fun _ _ => rfl)
            (fun _ h => rfl) (by simp [hna]) (fun h => .inl h) (.inl rfl) (by simp) (fun _ h => upd_other _ _ h)
            (by simp [Pc.rp, progOuter, repOf]) (fun _ h => h) (fun _ h => .inl h) (by simp [hsg])
            (by simp [Pc.rp, progOuter, repOf]) (by simp [Pc.early]) (by simp [hlv])
      · rename_i hk
        have h0 : i ≠ 0 := by intro h; rw [← hkn hm, hk] at h; cases h
        split at hs <;> cases hs
        cases sig <;>
          exact inv2_gen (i := i) (p' := .run (progSeq _)) h2 rfl h2.go (fun j h h' => h)
            (fun h => absurd h hl) (fun _ _ => rfl)
            (fun _ h => rfl) (by simp [hna]) (fun h => .inl h) (.inl rfl) (by simp) (fun _ h => upd_other _ _ h)
            (by simp [Pc.rp, progSeq, repOf]) (fun _ h => h) (fun _ h => .inl h) (by simp [hsg])
            (by simp [Pc.rp, progSeq, repOf]) (by simp [Pc.early])
            (by dsimp only; rw [upd_other _ _ (Ne.symm h0)]; exact h2.s5)
      · rename_i o hk
        have h0 : i ≠ 0 := by intro h; rw [← hkn hm, hk] at h; cases h
        cases hs
        cases sig <;>
          exact inv2_gen (i := i) (p' := .run (progVal _)) h2 rfl h2.go (fun j h h' => h)
            (fun h => absurd h hl) (fun _ _ => rfl)
            (fun _ h => rfl) (by simp [hna]) (fun h => .inl h) (.inl rfl) (by simp) (fun _ h => upd_other _ _ h)
            (by simp [Pc.rp, progVal, repOf]) (fun _ h => h) (fun _ h => .inl h) (by simp [hsg])
            (by simp [Pc.rp, progVal, repOf]) (by simp [Pc.early])
            (by dsimp only; rw [upd_other _ _ (Ne.symm h0)]; exact h2.s5)
    · cases hs
  | op i => exact inv2_stepOp hi h2 hs
  | opThrow i e =>
    simp only [step, stepOpThrow] at hs
    split at hs <;> cases hs
    rename_i h
    have hp := h.1
    refine inv2_quiet h2 (i := i) (by simp [hp, Pc.early]) (hpc := rfl) ?_ ?_ ?_ ?_ ?_ ?_ ?_ ?_ ?_ ?_ ?_ ?_ ?_ ?_ <;>
      first | rfl | (simp [hp]; done) | pcs2
  | errAck i =>
    simp only [step, stepErrAck] at hs
    split at hs <;> cases hs
    rename_i hp
    refine inv2_quiet h2 (i := i) (by simp [hp, Pc.early]) (hpc := rfl) ?_ ?_ ?_ ?_ ?_ ?_ ?_ ?_ ?_ ?_ ?_ ?_ ?_ ?_ <;>
      first | rfl | (simp [hp]; done) | pcs2
  | extStop =>
    simp only [step, stepExtStop] at hs
    cases hs
    exact h2.same rfl rfl rfl rfl rfl rfl rfl rfl rfl

theorem inv2_reach {b : Bool} {s : St} (h : Reachable b s) : Inv2 s := by
  refine (Reach.inv (fun s => Inv s ∧ Inv2 s) ⟨inv_init b, inv2_init b⟩ ?_ s h).2
  exact fun _ a _ hi hs => ⟨inv_step a hi.1 hs, inv2_step a hi.1 hi.2 hs⟩

theorem stoppable_reach {b : Bool} {s : St} (h : Reachable b s) : s.stoppable = b := by
  refine Reach.inv (fun s => s.stoppable = b) rfl ?_ s h
  intro s a s' hi hs
  rw [← hi]
  cases a <;> simp only [step, stepStart, stepNextSeq, stepNextVal, stepBegin, stepAck, stepDestroy, stepComplete, stepOp,
    stepOpThrow, stepErrAck, stepExtStop] at hs <;> (repeat' split at hs) <;> cases hs <;> rfl

/-- Nothing is created before the sequence of sequences is started. -/
theorem zero_first {b : Bool} {s : St} (h : Reachable b s) : ∀ j, s.pc j ≠ .absent → s.pc 0 ≠ .absent := by
  refine (Reach.inv' (fun s => ∀ j, s.pc j ≠ .absent → s.pc 0 ≠ .absent) (by simp [init]) ?_ s h)
  intro s a s' hr hz hs
  have hi := inv_reach hr
  have hupd : ∀ i p', p' ≠ .absent → (i = 0 ∨ s.pc 0 ≠ .absent) → ∀ j, upd s.pc i p' j ≠ .absent → upd s.pc i p' 0 ≠ .absent := by
    intro i p' hp' h0 j _
    by_cases hi0 : (0 : Nat) = i
    · rw [← hi0, upd_same]; exact hp'
    · rw [upd_other _ _ hi0]; exact h0.resolve_left (Ne.symm hi0)
  have hcont : ∀ ops, cont ops ≠ .absent := by intro ops; cases ops <;> simp [cont]
  cases a with
  | nextVal j i =>
    simp only [step, stepNextVal] at hs
    split at hs <;> cases hs
    rename_i h'
    exact hupd _ _ (by simp) (.inr (hz j (by simp [h'.2.1])))
  | op i =>
    simp only [step, stepOp] at hs
    split at hs
    · rename_i hp
      have h0 := hz i (by simp [hp])
      (repeat' split at hs) <;> cases hs <;> exact hupd _ _ (by simp [hcont]) (.inr h0)
    · cases hs
  | complete i sig =>
    simp only [step, stepComplete] at hs
    split at hs
    · rename_i hp
      have h0 := hz i (by simp [hp])
      (repeat' split at hs) <;> cases hs <;> exact hupd _ _ (by simp) (.inr h0)
    · rename_i hp
      have h0 := hz i (by simp [hp])
      (repeat' split at hs) <;> cases hs <;> exact hupd _ _ (by simp) (.inr h0)
    · cases hs
  | «begin» i =>
    simp only [step, stepBegin] at hs
    split at hs
    · rename_i hp
      have h0 := hz i (by simp [hp.1])
      split at hs <;> cases hs <;> exact hupd _ _ (by simp) (.inr h0)
    · cases hs
  | start =>
    simp only [step, stepStart] at hs
    (repeat' split at hs) <;> cases hs
    · exact hz
    · exact hupd _ _ (by simp) (.inl rfl)
  | nextSeq i =>
    simp only [step, stepNextSeq] at hs
    split at hs <;> cases hs
    rename_i h'
    exact hupd _ _ (by simp) (.inr (by simp [h'.1]))
  | ack i =>
    simp only [step, stepAck] at hs
    (repeat' split at hs) <;> cases hs <;> exact hz
  | destroy i =>
    simp only [step, stepDestroy] at hs
    split at hs <;> cases hs
    exact hz
  | opThrow i e =>
    simp only [step, stepOpThrow] at hs
    split at hs <;> cases hs
    rename_i h'
    exact hupd _ _ (by simp) (.inr (hz i (by simp [h'.1])))
  | errAck i =>
    simp only [step, stepErrAck] at hs
    split at hs <;> cases hs
    rename_i h'
    exact hupd _ _ (by simp) (.inr (hz i (by simp [h'])))
  | extStop =>
    simp only [step, stepExtStop] at hs
    cases hs; exact hz

end Verif.MergeEach
