import Verif.MergeEach.StepOp
/-! # The remaining steps preserve the invariant -/
namespace Verif.MergeEach

set_option maxHeartbeats 4000000

theorem live_active {s : St} (hi : Inv s) {i : Nat} (h : s.pc i = .live) : s.active ≠ 0 := by
  intro h0; have := hi.quiet h0 i; rw [h] at this; simp [Pc.w] at this

/-- A new item. -/
theorem inv_new {s : St} (hi : Inv s) {i : Nat} (hp : s.pc i = .absent) (h0 : i ≠ 0) (k : Kind) (hk : k ≠ .outer)
    (hown : (k = .seq → s.pc 0 = .live) ∧ ∀ o, k = .val o → s.pc o = .live ∧ s.kind o = .seq)
    (hact : s.active ≠ 0) (l : List Ev) (hl : Nexts l) :
    Inv { s with pc := upd s.pc i .given, kind := upd s.kind i k, agents := i :: s.agents, log := s.log ++ l } := by
  have hni : i ∉ s.agents := fun h => (hi.ag i).1 h hp
  obtain ⟨hn, he⟩ := hi.busy hact
  have hne : ∀ j, j ∈ s.agents → j ≠ i := by rintro j hj rfl; exact hni hj
  have hlive : ∀ o, s.pc o = .live → o ≠ i := by rintro o ho rfl; rw [hp] at ho; cases ho
  constructor <;> dsimp only
  · exact List.nodup_cons.2 ⟨hni, hi.nd⟩
  · intro j
    by_cases hj : j = i
    · subst hj; simp
    · simp only [List.mem_cons, hj, false_or, upd_other _ _ hj]; exact hi.ag j
  · intro j hj
    by_cases hji : j = i
    · subst hji; simp [hk, h0]
    · rw [upd_other _ _ hji]; exact hi.kn j (by simpa [hji] using hj)
  · intro j hj ha
    by_cases hji : j = i
    · subst hji
      rw [upd_same]
      refine ⟨fun h => ?_, fun o h => ?_⟩
      · have := hown.1 h; rw [upd_other _ _ (hlive 0 this)]; exact this
      · have := hown.2 o h; rw [upd_other _ _ (hlive o this.1), upd_other _ _ (hlive o this.1)]; exact this
    · rw [upd_other _ _ hji]
      have hj' : j ∈ s.agents := by simpa [hji] using hj
      refine ⟨fun h => ?_, fun o h => ?_⟩
      · have := (hi.own j hj' ha).1 h; rw [upd_other _ _ (hlive 0 this)]; exact this
      · have := (hi.own j hj' ha).2 o h; rw [upd_other _ _ (hlive o this.1), upd_other _ _ (hlive o this.1)]; exact this
  · intro j hj hj0 ha
    by_cases hji : j = i
    · subst hji; simp [Pc.owes]
    · rw [upd_other _ _ hji]; exact hi.owe j (by simpa [hji] using hj) hj0 ha
  · intro j ha
    by_cases hji : j = i
    · subst hji; simp
    · rw [upd_other _ _ hji]; exact hi.nak j ha
  · intro j ha
    by_cases hji : j = i
    · subst hji; exact absurd hp (hi.nt j ha).2.2.2
    · rw [upd_other _ _ hji]; exact hi.nt j ha
  · intro j
    by_cases hji : j = i
    · subst hji; simp [Pc.ok, hk]
    · rw [upd_other _ _ hji, upd_other _ _ hji]; exact hi.pk j
  · simp only [lsum, upd_same, lsum_upd_notin _ _ hni, Pc.w]; rw [hi.act]; omega
  · have := hi.fin
    simp only [lsum, upd_same, lsum_upd_notin _ _ hni, Pc.f, terms_append, terms_nexts hl]; omega
  · intro h; exact absurd (hi.pre h).2.2 hact
  · intro h; exact absurd (hi.pre h).2.2 hact
  · exact ⟨s.log ++ l, [], by simp, by intro ev h; rcases List.mem_append.1 h with h | h; exact hn ev h; exact hl ev h,
      .nil (upd_ne he (by simp))⟩
  · intro j e h
    by_cases hji : j = i
    · subst hji; simp [Pc.pS] at h
    · rw [upd_other _ _ hji] at h; exact hi.ps j e h
  · intro j e h
    by_cases hji : j = i
    · subst hji; simp [Pc.pE] at h
    · rw [upd_other _ _ hji] at h; exact hi.pe j e h
  · exact win_move hi (by simp [hp, Pc.pS]) (by simp [hp, Pc.pE])
  · exact hi.rep
  · exact hi.nex
  · exact hi.stp
  · intro j h
    by_cases hji : j = i
    · subst hji; simp [Pc.bk] at h
    · rw [upd_other _ _ hji] at h; exact hi.bkp j h
  · exact os_move hi (by simp [hp, Pc.bk])
  · rw [upd_other _ _ (Ne.symm h0)]; exact hi.lv
  · exact sr_move hi (by simp [hp, Pc.rs])
  · exact hi.reg

theorem inv_nextSeq {s s' : St} (hi : Inv s) {i : Nat} (hs : stepNextSeq s i = some s') : Inv s' := by
  simp only [stepNextSeq] at hs
  split at hs <;> cases hs
  rename_i h
  have := inv_new hi h.2.2 h.2.1 .seq (by simp) ⟨fun _ => h.1, by simp⟩ (live_active hi h.1) [] (by simp [Nexts])
  simpa using this

theorem inv_nextVal {s s' : St} (hi : Inv s) {j i : Nat} (hs : stepNextVal s j i = some s') : Inv s' := by
  simp only [stepNextVal] at hs
  split at hs <;> cases hs
  rename_i h
  exact inv_new hi h.2.2.2.2 h.2.2.2.1 (.val j) (by simp)
    ⟨by simp, by intro o ho; simp only [Kind.val.injEq] at ho; subst ho; exact ⟨h.2.1, h.2.2.1⟩⟩
    (live_active hi h.2.1) [.next i] (by simp [Nexts])

theorem inv_destroy {s s' : St} (hi : Inv s) {i : Nat} (hs : stepDestroy s i = some s') : Inv s' := by
  simp only [stepDestroy] at hs
  split at hs <;> cases hs
  obtain ⟨l, t, h1, h2, h3⟩ := hi.tl
  exact ⟨hi.nd, hi.ag, hi.kn, hi.own, hi.owe, hi.nak, hi.nt, hi.pk, hi.act, hi.fin, hi.pre, hi.ns,
    ⟨l, t, h1, h2, h3.keep rfl rfl rfl rfl rfl rfl id⟩, hi.ps, hi.pe, hi.win, hi.rep, hi.nex, hi.stp, hi.bkp, hi.os,
    hi.lv, hi.sr, hi.reg⟩

theorem inv_extStop {s s' : St} (hi : Inv s) (hs : stepExtStop s = some s') : Inv s' := by
  simp only [stepExtStop] at hs
  cases hs
  obtain ⟨l, t, h1, h2, h3⟩ := hi.tl
  exact ⟨hi.nd, hi.ag, hi.kn, hi.own, hi.owe, hi.nak, hi.nt, hi.pk, hi.act, hi.fin, hi.pre, hi.ns,
    ⟨l, t, h1, h2, h3.keep rfl rfl rfl rfl rfl rfl (fun _ => rfl)⟩, hi.ps, hi.pe, hi.win, hi.rep, hi.nex, hi.stp, hi.bkp,
    hi.os, hi.lv, fun a b => (hi.sr a b).imp (fun h => by simp [h]) id, hi.reg⟩

theorem inv_ack {s s' : St} (hi : Inv s) {i : Nat} (hs : stepAck s i = some s') : Inv s' := by
  have key : s.acked i = false → (s.pc i = .given ∨ s.noted i = true ∧ ∃ o, s.kind i = .val o) →
      (s.pc i ≠ .live0 ∧ s.pc i ≠ .live ∧ s.pc i ≠ .absent) → Inv { s with acked := upd s.acked i true } := by
    intro ha hg hn
    obtain ⟨l, t, h1, h2, h3⟩ := hi.tl
    have hm : ∀ j, upd s.acked i true j = false → s.acked j = false := by
      intro j h
      by_cases hji : j = i
      · subst hji; simp at h
      · rw [upd_other _ _ hji] at h; exact h
    refine ⟨hi.nd, hi.ag, hi.kn, fun j hj h => hi.own j hj (hm j h), fun j hj h0 h => hi.owe j hj h0 (hm j h), ?_, hi.nt, hi.pk,
      hi.act, hi.fin, hi.pre, hi.ns,
      ⟨l, t, h1, h2, h3.keep rfl rfl rfl rfl rfl rfl id⟩, hi.ps, hi.pe, hi.win, hi.rep, hi.nex, hi.stp, hi.bkp, hi.os,
      hi.lv, hi.sr, hi.reg⟩
    intro j h
    by_cases hji : j = i
    · subst hji; exact hn
    · dsimp only at h; rw [upd_other _ _ hji] at h; exact hi.nak j h
  unfold stepAck at hs
  split at hs
  · rename_i o ho
    split at hs <;> cases hs
    rename_i h
    refine key h.1 (h.2.imp id fun h => ⟨h, o, ho⟩) ?_
    rcases h.2 with h | h
    · simp [h]
    · exact ⟨(hi.nt i h).1, (hi.nt i h).2.1, (hi.nt i h).2.2.2⟩
  · split at hs <;> cases hs
    rename_i h
    exact key h.1 (.inl h.2) (by simp [h.2])
  · cases hs

/-- Nothing pending in the old and the new position of the child. -/
theorem inv_begin {s s' : St} (hi : Inv s) {i : Nat} (hs : stepBegin s i = some s') : Inv s' := by
  have key : ∀ p', (p' = .live ∨ p' = .live0 ∧ s.kind i = .seq) → s.pc i = .given → s.acked i = false → i ≠ 0 →
      s.active ≠ 0 → Inv { s with active := s.active + 1, pc := upd s.pc i p' } := by
    intro p' hp' hp ha h0 hact
    have hb : s.begun = true := by
      cases h : s.begun
      · exact absurd (hi.pre h).2.2 hact
      · rfl
    obtain ⟨hn, he⟩ := hi.busy hact
    have hq : p'.pS = none ∧ p'.pE = none ∧ p'.bk = false ∧ p'.owes = true ∧ p'.w = 1 ∧ p'.f = 0 ∧
        p'.ok (s.kind i) = true ∧ p' ≠ .absent ∧ p' ≠ .errItem := by
      rcases hp' with rfl | ⟨rfl, hk⟩ <;> simp_all [Pc.pS, Pc.pE, Pc.bk, Pc.owes, Pc.w, Pc.ok, Pc.f]
    obtain ⟨q1, q2, q3, q4, q5, q6, q7, q8, q9⟩ := hq
    refine inv_gen (p' := p') hi (by simp [hp]) (by simp [hp]) rfl rfl rfl rfl rfl rfl id (fun _ => rfl) id (fun _ _ => rfl)
      (fun _ _ => rfl) id q8 (fun h => absurd h h0) (by simp [ha])
      (fun h => absurd hp (hi.nt i h).2.2.1) (fun _ _ => .inl q4) q7 (by rw [hp, q5]; simp [Pc.w])
      (by rw [hp, q6]; simp [Pc.f, hact]) ⟨s.log, [], by simp, hn, .nil (upd_ne he q9)⟩ (fun _ h => h)
      (by simp [q1]) (by simp [q2]) (win_move hi (by rw [hp, q1]; rfl) (by rw [hp, q2]; rfl))
      hi.rep hi.nex hi.stp id (by simp [q3]) (os_move hi (by simp [hp, Pc.bk])) (sr_move hi (by simp [hp, Pc.rs]))
  unfold stepBegin at hs
  split at hs
  · rename_i h
    have hm : i ∈ s.agents := hi.mem (by simp [h.1])
    have hkn := hi.kn i hm
    have hown := hi.own i hm h.2
    split at hs <;> cases hs <;> rename_i hk
    · refine key .live0 (.inr ⟨rfl, hk⟩) h.1 h.2 ?_ (live_active hi (hown.1 hk))
      intro h0; rw [← hkn, hk] at h0; cases h0
    · refine key .live (.inl rfl) h.1 h.2 ?_ (live_active hi (hown.2 _ hk).1)
      intro h0; rw [← hkn, hk] at h0; cases h0
  · cases hs

theorem itemsDone_iff {s : St} {j : Nat} : itemsDone s j = true ↔ ∀ i ∈ s.agents, i ≠ 0 →
    (s.kind i = .seq → j = 0 → s.acked i = true) ∧ (s.kind i = .val j → s.acked i = true) := by
  simp only [itemsDone, List.all_eq_true, Bool.or_eq_true, beq_iff_eq]
  constructor
  · intro h i hi h0
    have := (h i hi).resolve_left h0
    refine ⟨fun hk hj => ?_, fun hk => ?_⟩ <;> simp_all
  · intro h i hi
    by_cases h0 : i = 0
    · exact .inl h0
    · right
      have := h i hi h0
      cases hk : s.kind i with
      | outer => rfl
      | seq =>
        by_cases hj : j = 0
        · simp [this.1 hk hj]
        · simp [hj]
      | val o =>
        by_cases hj : o = j
        · subst hj; simp [this.2 hk]
        · simp [hj]

theorem inv_complete {s s' : St} (hi : Inv s) {i : Nat} {sig : Sig} (hs : stepComplete s i sig = some s') : Inv s' := by
  have key : ∀ (p' : Pc) (lost' : List Nat) (os' : Bool) (sg : Nat → Option Sig), (s.pc i = .live ∨ s.pc i = .live0) → p'.w = 1 → p'.f = 0 →
      p'.ok (s.kind i) = true → p'.pS = none → p'.pE = none → p' ≠ .absent → p' ≠ .errItem → p' ≠ .given →
      (s.pc i = .live → itemsDone s i = true ∨ ∃ o, s.kind i = .val o) →
      (p'.owes = true ∨ i ∈ lost' ∨ i = 0) → (∀ j ∈ s.lost, j ∈ lost') →
      (s.outerStopped = true → os' = true) → (i ≠ 0 → os' = s.outerStopped) →
      (i = 0 → p' ≠ .live) → (p'.bk = true → i = 0 ∧ os' = true) → (os' = true → i = 0 → p'.bk = true) →
      Inv { s with pc := upd s.pc i p', lost := lost', outerStopped := os', sig := sg } := by
    intro p' lost' os' sg hp hw hf hok hpS hpE q8 q9 q10 hid howe hlost hos1 hos2 h0l hbk1 hbk2
    have hw0 : (s.pc i).w = 1 := by rcases hp with h | h <;> simp [h, Pc.w]
    have hf0 : (s.pc i).f = 0 := by rcases hp with h | h <;> simp [h, Pc.f]
    have hS0 : (s.pc i).pS = none := by rcases hp with h | h <;> simp [h, Pc.pS]
    have hE0 : (s.pc i).pE = none := by rcases hp with h | h <;> simp [h, Pc.pE]
    have hrs0 : (s.pc i).rs = false := by rcases hp with h | h <;> simp [h, Pc.rs]
    have hbk0 : (s.pc i).bk = false := by rcases hp with h | h <;> simp [h, Pc.bk]
    have hna : s.pc i ≠ .absent := by rcases hp with h | h <;> simp [h]
    have hm := hi.mem hna
    have hacki : s.acked i = false := by
      cases h : s.acked i
      · rfl
      · have := hi.nak i h; rcases hp with h' | h' <;> simp [h'] at this
    have hnoti : s.noted i = false := by
      cases h : s.noted i
      · rfl
      · have := hi.nt i h; rcases hp with h' | h' <;> simp [h'] at this
    have hact : s.active ≠ 0 := by
      intro h; have := hi.quiet h i; omega
    obtain ⟨hn, he⟩ := hi.busy hact
    have base : Inv { s with lost := lost' } := by
      obtain ⟨l, t, h1, h2, h3⟩ := hi.tl
      exact ⟨hi.nd, hi.ag, hi.kn, hi.own, fun j hj h0 ha => (hi.owe j hj h0 ha).imp id (Or.imp id (hlost j)), hi.nak, hi.nt,
        hi.pk, hi.act, hi.fin, hi.pre, hi.ns, ⟨l, t, h1, h2, h3.keep rfl rfl rfl rfl rfl rfl id⟩, hi.ps, hi.pe, hi.win, hi.rep,
        hi.nex, hi.stp, hi.bkp, hi.os, hi.lv, hi.sr, hi.reg⟩
    refine inv_gen (p' := p') base hna ?_ rfl rfl rfl rfl rfl rfl hos1 hos2 id (fun _ _ => rfl) (fun _ _ => rfl) id q8 h0l
      (fun h => absurd h (by simp [hacki])) (fun h => absurd h (by simp [hnoti])) ?_ hok (by simp [hw0, hw])
      (by simp [hf0, hf]) ⟨s.log, [], by simp, hn, .nil (upd_ne he q9)⟩ (fun _ h => h) (by simp [hpS]) (by simp [hpE])
      (win_move hi (by rw [hS0, hpS]) (by rw [hE0, hpE])) hi.rep hi.nex (fun h => hos1 (hi.stp h)) id
      (fun h => .inr (hbk1 h)) ?_ (sr_move hi hrs0)
    · intro hl j hj ha
      have hown := hi.own j hj ha
      refine ⟨fun hk h0 => ?_, fun o hk ho => ?_⟩
      · subst h0
        have hj0 : j ≠ 0 := by rintro rfl; have := (hi.kn 0 hj).2 rfl; rw [hk] at this; cases this
        rcases hid hl with h | ⟨o, h⟩
        · have := (itemsDone_iff.1 h j hj hj0).1 hk rfl; rw [ha] at this; cases this
        · have := (hi.kn 0 hm).2 rfl; rw [h] at this; cases this
      · subst ho
        have hj0 : j ≠ 0 := by rintro rfl; have := (hi.kn 0 hj).2 rfl; rw [hk] at this; cases this
        rcases hid hl with h | ⟨o, h⟩
        · have := (itemsDone_iff.1 h j hj hj0).2 hk; rw [ha] at this; cases this
        · have := (hown.2 i hk).2; rw [h] at this; cases this
    · intro h0 _
      rcases howe with h | h | h
      · exact .inl h
      · exact .inr (.inr h)
      · exact absurd h h0
    · intro ho
      by_cases h0 : (0 : Nat) = i
      · right; rw [← h0, upd_same]; exact hbk2 ho h0.symm
      · rw [upd_other _ _ h0]
        rw [hos2 (Ne.symm h0)] at ho
        exact hi.os ho
  have hkn := hi.kn i
  unfold stepComplete at hs
  split at hs
  · rename_i hp
    have hm := hi.mem (j := i) (by simp [hp])
    have hk : s.kind i = .seq := by have := hi.pk i; rw [hp] at this; simpa [Pc.ok] using this
    have h0 : i ≠ 0 := by intro h; rw [← hkn hm, hk] at h; cases h
    split at hs
    · cases hs
      exact key .live s.lost s.outerStopped _ (.inr hp) (by simp [Pc.w]) (by simp [Pc.f]) (by simp [Pc.ok]) rfl rfl (by simp)
        (by simp) (by simp) (by simp [hp]) (.inl (by simp [Pc.owes])) (fun _ h => h) id (fun _ => rfl)
        (fun h => absurd h h0) (by simp [Pc.bk]) (fun _ h => absurd h h0)
    · rename_i hv
      cases hs
      cases sig with
      | value => exact absurd rfl hv
      | error e =>
        exact key _ (i :: s.lost) s.outerStopped _ (.inr hp) (by simp [Pc.w, progSeq0]) (by simp [Pc.f, progSeq0])
          (by simp [Pc.ok, progSeq0, okP, hk]) rfl rfl (by simp)
          (by simp) (by simp) (by simp [hp]) (by simp) (by intro j h; simp [h]) id (fun _ => rfl)
          (fun h => absurd h h0) (by simp [Pc.bk, progSeq0, Op.reports]) (fun _ h => absurd h h0)
      | stopped =>
        exact key _ (i :: s.lost) s.outerStopped _ (.inr hp) (by simp [Pc.w, progSeq0]) (by simp [Pc.f, progSeq0])
          (by simp [Pc.ok, progSeq0, okP, hk]) rfl rfl (by simp)
          (by simp) (by simp) (by simp [hp]) (by simp) (by intro j h; simp [h]) id (fun _ => rfl)
          (fun h => absurd h h0) (by simp [Pc.bk, progSeq0, Op.reports]) (fun _ h => absurd h h0)
  · rename_i hp
    have hm := hi.mem (j := i) (by simp [hp])
    split at hs
    · rename_i hk
      have h0 : i = 0 := (hkn hm).1 hk
      split at hs <;> cases hs
      rename_i hd
      have hlv : s.outerStopped = false := hi.lv (h0 ▸ hp)
      cases sig <;>
        exact key _ s.lost _ _ (.inl hp) (by simp [Pc.w, progOuter]) (by simp [Pc.f, progOuter])
          (by simp [Pc.ok, progOuter, okP, hk]) rfl rfl (by simp)
          (by simp) (by simp) (fun _ => .inl hd) (by simp [h0]) (fun _ h => h) (by simp [hlv]) (fun h => absurd h0 h)
          (by simp) (by simp [Pc.bk, progOuter, Op.reports, h0]) (by simp [Pc.bk, progOuter, Op.reports, hlv])
    · rename_i hk
      have h0 : i ≠ 0 := by intro h; rw [← hkn hm, hk] at h; cases h
      split at hs <;> cases hs
      rename_i hd
      cases sig <;>
        exact key _ s.lost s.outerStopped _ (.inl hp) (by simp [Pc.w, progSeq]) (by simp [Pc.f, progSeq])
          (by simp [Pc.ok, progSeq, okP, hk]) rfl rfl (by simp)
          (by simp) (by simp) (fun _ => .inl hd) (by simp [Pc.owes, progSeq, Op.isNote]) (fun _ h => h) id (fun _ => rfl)
          (fun h => absurd h h0) (by simp [Pc.bk, progSeq, Op.reports]) (fun _ h => absurd h h0)
    · rename_i o hk
      have h0 : i ≠ 0 := by intro h; rw [← hkn hm, hk] at h; cases h
      cases hs
      cases sig <;>
        exact key _ s.lost s.outerStopped _ (.inl hp) (by simp [Pc.w, progVal]) (by simp [Pc.f, progVal])
          (by simp [Pc.ok, progVal, okP, hk]) rfl rfl (by simp)
          (by simp) (by simp) (fun _ => .inr ⟨o, hk⟩) (by simp [Pc.owes, progVal, Op.isNote]) (fun _ h => h) id (fun _ => rfl)
          (fun h => absurd h h0) (by simp [Pc.bk, progVal, Op.reports]) (fun _ h => absurd h h0)
  · cases hs

theorem inv_start {s s' : St} (hi : Inv s) (hs : stepStart s = some s') : Inv s' := by
  unfold stepStart at hs
  split at hs
  · cases hs
  rename_i hb
  simp only [Bool.not_eq_true] at hb
  obtain ⟨ha, hl, hact⟩ := hi.pre hb
  have hpc : ∀ j, s.pc j = .absent := by
    intro j
    by_cases h : s.pc j = .absent
    · exact h
    · have := hi.mem h; rw [ha] at this; cases this
  have hfin := hi.fin
  split at hs <;> cases hs
  · rename_i hr
    simp only [Bool.and_eq_true] at hr
    refine ⟨hi.nd, hi.ag, hi.kn, hi.own, hi.owe, hi.nak, hi.nt, hi.pk, hi.act, ?_, by simp, by simp,
      ⟨[], [.stopped], by simp [hl], by simp [Nexts], .unstarted ha⟩, hi.ps, hi.pe, hi.win, hi.rep, hi.nex, hi.stp, hi.bkp,
      hi.os, hi.lv, fun _ _ => .inl rfl, fun _ => hr.1⟩
    simp [ha, hl, hact, lsum, terms]
    rfl
  · obtain ⟨hrep, hos, hc⟩ := hi.ns hb
    obtain ⟨hex, hst⟩ := hi.nex hrep
    have hu : ∀ j, upd s.pc 0 Pc.live j = .live ∧ j = 0 ∨ upd s.pc 0 Pc.live j = .absent ∧ j ≠ 0 := by
      intro j
      by_cases h : j = 0
      · subst h; left; simp
      · right; exact ⟨by rw [upd_other _ _ h, hpc j], h⟩
    have hna : ∀ j, s.acked j = false := by
      intro j; cases h : s.acked j
      · rfl
      · exact absurd (hpc j) (hi.nak j h).2.2
    have hnn : ∀ j, s.noted j = false := by
      intro j; cases h : s.noted j
      · rfl
      · exact absurd (hpc j) (hi.nt j h).2.2.2
    constructor <;> dsimp only
    · simp [ha]
    · intro j; rcases hu j with ⟨h, rfl⟩ | ⟨h, h'⟩ <;> simp [h, ha, *]
    · intro j hj; simp [ha] at hj; subst hj; simp
    · intro j hj; simp [ha] at hj; subst hj; simp
    · intro j hj; simp [ha] at hj; subst hj; simp
    · intro j h; rw [hna j] at h; cases h
    · intro j h; rw [hnn j] at h; cases h
    · intro j; rcases hu j with ⟨h, rfl⟩ | ⟨h, h'⟩ <;> simp [h, Pc.ok]
    · simp [ha, lsum, Pc.w]
    · simp [ha, hl, lsum, Pc.f, terms]
    · simp
    · simp
    · exact ⟨[], [], by simp [hl], by simp [Nexts], .nil (by intro j; rcases hu j with ⟨h, rfl⟩ | ⟨h, h'⟩ <;> simp [h])⟩
    · intro j e h; rcases hu j with ⟨h', rfl⟩ | ⟨h', _⟩ <;> simp [h', Pc.pS] at h
    · intro j e h; rcases hu j with ⟨h', rfl⟩ | ⟨h', _⟩ <;> simp [h', Pc.pE] at h
    · simp [hrep]
    · exact hi.rep
    · exact hi.nex
    · exact hi.stp
    · intro j h; rcases hu j with ⟨h', rfl⟩ | ⟨h', _⟩ <;> simp [h', Pc.bk] at h
    · simp [hos]
    · simp [hos]
    · simp [hc]
    · exact id

def Reachable (b : Bool) (s : St) : Prop := Reach (init b) step s

theorem inv_step {s s' : St} (a : Act) (hi : Inv s) (hs : step s a = some s') : Inv s' := by
  cases a with
  | start => exact inv_start hi hs
  | nextSeq i => exact inv_nextSeq hi hs
  | nextVal j i => exact inv_nextVal hi hs
  | «begin» i => exact inv_begin hi hs
  | ack i => exact inv_ack hi hs
  | destroy i => exact inv_destroy hi hs
  | complete i sig => exact inv_complete hi hs
  | op i => exact inv_stepOp hi hs
  | opThrow i e => exact step_opThrow hi hs
  | errAck i => exact step_errAck hi hs
  | extStop => exact inv_extStop hi hs

theorem inv_reach {b : Bool} {s : St} (h : Reachable b s) : Inv s :=
  Reach.inv Inv (inv_init b) (fun _ a _ hi hs => inv_step a hi hs) s h

end Verif.MergeEach
