import Verif.PoolSleep.Inv
/-! # A pool worker's sleep — preservation -/
namespace Verif.PoolSleep
set_option linter.unusedSimpArgs false

set_option maxHeartbeats 4000000 in
theorem inv_w {s s' : St} (h : Inv s) (hs : wStep s = some s') : Inv s' := by
  obtain ⟨h1, h2, h3, h4, h5, h6, h7, h8, h9, h10, h11, h12⟩ := h
  unfold wStep at hs
  split at hs
  all_goals try cases hs
  all_goals (rename_i hw; try split at hs)
  all_goals (try split at hs)
  all_goals (try cases hs)
  all_goals (try simp only [List.getLast?_eq_none_iff] at *)
  all_goals try (exfalso; exact h12 (h11 _ hw) (by assumption))
  all_goals (try (rename_i m _ ; cases m))
  all_goals (simp [hw, WPc.locked, WPc.dz, WPc.left, WPc.late, WPc.nostop, WPc.noLoc, WPc.noPend, afterNone] at h3 h4 h5 h6 h7 h8 h9 h10 h11)
  all_goals constructor
  all_goals (try simp [hw, St.run, WPc.locked, WPc.dz, WPc.left, WPc.late, WPc.nostop, WPc.noLoc, WPc.noPend, afterNone])
  all_goals first
    | assumption
    | done
    | grind

theorem inv_n {s s' : St} (t : Nat) (h : Inv s) (hs : nStep s t = some s') : Inv s' := by
  obtain ⟨h1, h2, h3, h4, h5, h6, h7, h8, h9, h10, h11, h12⟩ := h
  unfold nStep at hs
  split at hs
  · cases hs
  · rename_i hw
    cases hs
    refine ⟨h1, h2, h3, ?_, ?_, ?_, h7, ?_, h9, h10, h11, h12⟩
    · intro _; simp
    · intro hd _
      have h4 := h4 hd
      cases hst : s.state
      · exact absurd hst h4
      · exact ⟨t, .inl (by simp)⟩
      · obtain ⟨t', ht'⟩ := h5 hd hst
        refine ⟨t', ?_⟩
        have : t' ≠ t := by rintro rfl; rw [hw] at ht'; simp at ht'
        simpa [upd, this] using ht'
    · intro _ _ _; right; left; rfl
    · intro ha hb
      obtain ⟨t', ht'⟩ := h8 ha hb
      refine ⟨t', ?_⟩
      have : t' ≠ t := by rintro rfl; rw [hw] at ht'; cases ht'
      simpa [upd, this] using ht'
  · rename_i hw
    split at hs
    · cases hs
    · rename_i hl
      cases hs
      refine ⟨h1, h2, h3, h4, ?_, ?_, h7, ?_, h9, h10, h11, h12⟩
      · intro hd hst
        have : s.wpc = .asleep := by
          rw [h3] at hl
          revert hd hl
          generalize s.wpc = p
          cases p with
          | ldList m | scan m | app m | popR m => cases m <;> simp [WPc.dz, WPc.locked]
          | _ => simp [WPc.dz, WPc.locked]
        exact ⟨t, .inr ⟨this, by simp⟩⟩
      · intro hd q hq
        rcases h6 hd q hq with a | a | ⟨t', ht'⟩
        · exact .inl a
        · exact .inr (.inl a)
        · have : t' ≠ t := by rintro rfl; rw [hw] at ht'; cases ht'
          exact .inr (.inr ⟨t', by simpa [upd, this] using ht'⟩)
      · intro ha hb
        obtain ⟨t', ht'⟩ := h8 ha hb
        refine ⟨t', ?_⟩
        have : t' ≠ t := by rintro rfl; rw [hw] at ht'; cases ht'
        simpa [upd, this] using ht'
  · rename_i hw
    cases hs
    by_cases ha : s.wpc = .asleep
    · simp only [ha, if_true]
      rw [ha] at h3
      constructor <;> simp [WPc.locked, WPc.dz, WPc.left, WPc.late, WPc.nostop, WPc.noLoc, WPc.noPend]
        <;> assumption
    · simp only [ha, if_false]
      refine ⟨h1, h2, h3, h4, ?_, ?_, h7, ?_, h9, h10, h11, h12⟩
      · intro hd hst
        obtain ⟨t', ht'⟩ := h5 hd hst
        rcases ht' with ht' | ht'
        · have : t' ≠ t := by rintro rfl; rw [hw] at ht'; cases ht'
          exact ⟨t', .inl (by simpa [upd, this] using ht')⟩
        · exact absurd ht'.1 ha
      · intro hd q hq
        rcases h6 hd q hq with a | a | ⟨t', ht'⟩
        · exact .inl a
        · exact .inr (.inl a)
        · have : t' ≠ t := by rintro rfl; rw [hw] at ht'; cases ht'
          exact .inr (.inr ⟨t', by simpa [upd, this] using ht'⟩)
      · intro hb; exact absurd hb ha
  · rename_i hw
    split at hs
    · cases hs
    · rename_i hl
      cases hs
      refine ⟨h1, h2, h3, h4, ?_, ?_, ?_, ?_, h9, h10, h11, h12⟩
      · intro hd hst
        obtain ⟨t', ht'⟩ := h5 hd hst
        have : t' ≠ t := by rintro rfl; rw [hw] at ht'; simp at ht'
        exact ⟨t', by simpa [upd, this] using ht'⟩
      · intro hd q hq
        rcases h6 hd q hq with a | a | ⟨t', ht'⟩
        · exact .inl a
        · exact .inr (.inl a)
        · have : t' ≠ t := by rintro rfl; rw [hw] at ht'; cases ht'
          exact .inr (.inr ⟨t', by simpa [upd, this] using ht'⟩)
      · intro hd
        exfalso
        rw [h3] at hl
        revert hd hl
        generalize s.wpc = p
        cases p with
        | ldList m | scan m | app m | popR m => cases m <;> simp [WPc.nostop, WPc.locked]
        | _ => simp [WPc.nostop, WPc.locked]
      · intro _ _; exact ⟨t, by simp⟩
  · rename_i hw
    cases hs
    by_cases ha : s.wpc = .asleep
    · simp only [ha, if_true]
      rw [ha] at h3
      constructor <;> simp [WPc.locked, WPc.dz, WPc.left, WPc.late, WPc.nostop, WPc.noLoc, WPc.noPend]
        <;> assumption
    · simp only [ha, if_false]
      refine ⟨h1, h2, h3, h4, ?_, ?_, h7, ?_, h9, h10, h11, h12⟩
      · intro hd hst
        obtain ⟨t', ht'⟩ := h5 hd hst
        have : t' ≠ t := by rintro rfl; rw [hw] at ht'; simp at ht'
        exact ⟨t', by simpa [upd, this] using ht'⟩
      · intro hd q hq
        rcases h6 hd q hq with a | a | ⟨t', ht'⟩
        · exact .inl a
        · exact .inr (.inl a)
        · have : t' ≠ t := by rintro rfl; rw [hw] at ht'; cases ht'
          exact .inr (.inr ⟨t', by simpa [upd, this] using ht'⟩)
      · intro hb; exact absurd hb ha

/-- An idle thread starts something. -/
theorem inv_npc {s s' : St} (t : Nat) (p : NPc) (h : Inv s) (ht : s.npc t = .idle)
    (hs : s' = { s with npc := upd s.npc t p }) : Inv s' := by
  obtain ⟨h1, h2, h3, h4, h5, h6, h7, h8, h9, h10, h11, h12⟩ := h
  subst hs
  refine ⟨h1, h2, h3, h4, ?_, ?_, h7, ?_, h9, h10, h11, h12⟩
  · intro hd hst
    obtain ⟨t', ht'⟩ := h5 hd hst
    have : t' ≠ t := by rintro rfl; rw [ht] at ht'; simp at ht'
    exact ⟨t', by simpa [upd, this] using ht'⟩
  · intro hd q hq
    rcases h6 hd q hq with a | a | ⟨t', ht'⟩
    · exact .inl a
    · exact .inr (.inl a)
    · have : t' ≠ t := by rintro rfl; rw [ht] at ht'; cases ht'
      exact .inr (.inr ⟨t', by simpa [upd, this] using ht'⟩)
  · intro ha hb
    obtain ⟨t', ht'⟩ := h8 ha hb
    have : t' ≠ t := by rintro rfl; rw [ht] at ht'; cases ht'
    exact ⟨t', by simpa [upd, this] using ht'⟩

/-- Tasks arrive in remote queue `q`. -/
theorem inv_arrive {s s' : St} (t q : Nat) (xs : List Task) (sb : List Task) (h : Inv s)
    (ht : s.npc t = .idle) (hq : q ∈ s.regs) (e : Bool) (he : s.remote q = [] → e = true)
    (hs : s' = { s with remote := upd s.remote q (xs ++ s.remote q)
                        npc := upd s.npc t (if e then .exch else .idle)
                        subm := sb }) : Inv s' := by
  obtain ⟨h1, h2, h3, h4, h5, h6, h7, h8, h9, h10, h11, h12⟩ :=
    inv_npc t (if e then .exch else .idle) h ht rfl
  subst hs
  refine ⟨h1, ?_, h3, h4, h5, ?_, h7, h8, h9, h10, h11, h12⟩
  · intro q' hq'
    by_cases eq : q' = q
    · subst eq; exact hq
    · exact h2 q' (by simpa [upd, eq] using hq')
  · intro hd q' hq'
    by_cases eq : q' = q
    · subst eq
      by_cases hr : s.remote q' = []
      · right; right; exact ⟨t, by simp [he hr]⟩
      · exact h6 hd q' hr
    · exact h6 hd q' (by simpa [upd, eq] using hq')

theorem inv_step {s s' : St} (a : Act) (h : Inv s) (hs : step s a = some s') : Inv s' := by
  cases a with
  | reg q =>
    obtain ⟨h1, h2, h3, h4, h5, h6, h7, h8, h9, h10, h11, h12⟩ := h
    simp only [step] at hs
    split at hs <;> cases hs
    exact ⟨List.nodup_cons.2 ⟨by assumption, h1⟩, fun q hq => List.mem_cons_of_mem _ (h2 q hq), h3, h4, h5,
      h6, h7, h8, h9, h10, h11, h12⟩
  | push t q x =>
    simp only [step] at hs
    split at hs <;> cases hs
    rename_i hc
    refine inv_arrive t q [x] (s.subm ++ [x]) h hc.1 hc.2 (decide (s.remote q = [])) (by simp) ?_
    simp
  | prepend t q xs =>
    simp only [step] at hs
    split at hs <;> cases hs
    rename_i hc
    exact inv_arrive t q xs _ h hc.1 hc.2 true (by simp) rfl
  | poke t =>
    simp only [step] at hs
    split at hs <;> cases hs
    exact inv_npc t .exch h (by assumption) rfl
  | stop t =>
    simp only [step] at hs
    split at hs <;> cases hs
    exact inv_npc t .stopLk h (by assumption) rfl
  | n t => exact inv_n t h hs
  | steal i =>
    obtain ⟨h1, h2, h3, h4, h5, h6, h7, h8, h9, h10, h11, h12⟩ := h
    simp only [step] at hs
    split at hs
    · split at hs <;> cases hs
      rename_i x hx hc
      refine ⟨h1, h2, h3, h4, h5, h6, h7, h8, ?_, h10, h11, ?_⟩
      · intro hn; have := h9 hn; simp [this]
      · intro ht
        have hc : i + 1 < s.loc.length :=
          hc.elim (fun a => a) (fun a => absurd (a.symm.trans ht) (by simp))
        have : (s.loc.eraseIdx i).length ≠ 0 := by rw [List.length_eraseIdx]; split <;> omega
        intro e; exact this (List.length_eq_zero_iff.2 e)
    · cases hs
  | pushLocal x acc =>
    obtain ⟨h1, h2, h3, h4, h5, h6, h7, h8, h9, h10, h11, h12⟩ := h
    simp only [step] at hs
    split at hs
    · rename_i hw
      split at hs
      · cases hs
        constructor <;> simp_all [WPc.locked, WPc.dz, WPc.late, WPc.nostop, WPc.noLoc, WPc.noPend]
      · split at hs <;> cases hs
        constructor <;> simp_all [WPc.locked, WPc.dz, WPc.late, WPc.nostop, WPc.noLoc, WPc.noPend]
    · cases hs
  | pushLocalBulk xs =>
    obtain ⟨h1, h2, h3, h4, h5, h6, h7, h8, h9, h10, h11, h12⟩ := h
    simp only [step] at hs
    split at hs <;> cases hs
    constructor <;> simp_all [WPc.locked, WPc.dz, WPc.late, WPc.nostop, WPc.noLoc, WPc.noPend]
  | finish =>
    obtain ⟨h1, h2, h3, h4, h5, h6, h7, h8, h9, h10, h11, h12⟩ := h
    simp only [step] at hs
    split at hs <;> cases hs
    constructor <;> simp_all [WPc.locked, WPc.dz, WPc.late, WPc.nostop, WPc.noLoc, WPc.noPend]
  | w => exact inv_w h hs
  | wAcc k =>
    obtain ⟨h1, h2, h3, h4, h5, h6, h7, h8, h9, h10, h11, h12⟩ := h
    simp only [step] at hs
    split at hs
    · rename_i m acc hw
      have hl : s.loc = [] := h9 (by rw [hw]; cases m <;> rfl)
      split at hs
      · rename_i hp
        split at hs <;> cases hs
        cases m <;> constructor <;>
          simp_all [WPc.locked, WPc.dz, WPc.late, WPc.left, WPc.nostop, WPc.noLoc, WPc.noPend, afterNone] <;> assumption
      · rename_i hp
        split at hs <;> cases hs
        rename_i hk
        have hk1 : 1 ≤ k := hk.2 hl
        have hne : (s.pending ++ acc).take k ≠ [] := by
          intro e; rw [List.take_eq_nil_iff] at e; rcases e with e | e
          · omega
          · exact hp e
        rw [if_pos hk1, hl]
        rw [hw] at h3 h4 h5 h6 h7
        refine ⟨h1, h2, ?_, ?_, ?_, ?_, ?_, ?_, ?_, ?_, ?_, ?_⟩
        · cases m <;> exact h3
        · cases m <;> exact h4
        · cases m <;> simpa [WPc.dz] using h5
        · cases m <;> exact h6
        · cases m <;> exact h7
        · intro e; cases e
        · intro e; cases m <;> cases e
        · intro e; cases m <;> cases e
        · intro _ _; rfl
        · intro _; simpa using hne
    · cases hs
  | wTake x =>
    obtain ⟨h1, h2, h3, h4, h5, h6, h7, h8, h9, h10, h11, h12⟩ := h
    simp only [step] at hs
    split at hs <;> cases hs
    constructor <;> simp_all [WPc.locked, WPc.dz, WPc.late, WPc.nostop, WPc.noLoc, WPc.noPend, St.run]
  | wFail =>
    obtain ⟨h1, h2, h3, h4, h5, h6, h7, h8, h9, h10, h11, h12⟩ := h
    simp only [step] at hs
    split at hs <;> cases hs
    constructor <;> simp_all [WPc.locked, WPc.dz, WPc.late, WPc.nostop, WPc.noLoc, WPc.noPend]
  | wake =>
    obtain ⟨h1, h2, h3, h4, h5, h6, h7, h8, h9, h10, h11, h12⟩ := h
    simp only [step] at hs
    split at hs <;> cases hs
    constructor <;> simp_all [WPc.locked, WPc.dz, WPc.late, WPc.nostop, WPc.noLoc, WPc.noPend]

theorem inv_reach : ∀ s, Reach init step s → Inv s :=
  Reach.inv _ inv_init (fun _ a _ h e => inv_step a h e)

end Verif.PoolSleep
