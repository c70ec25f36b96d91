import Verif.MergeEach.Step
/-! # Second invariant: where errors come from, lost children, lifetimes -/
namespace Verif.MergeEach

set_option maxHeartbeats 4000000

def repOf : List Op → Option Nat
  | [] => none
  | .fail e :: _ => some e
  | .except e :: _ => some e
  | _ :: l => repOf l

/-- The error the child is about to report. -/
def Pc.rp : Pc → Option Nat
  | .run ops => repOf ops
  | _ => none

/-- Not completed yet. -/
def Pc.early : Pc → Bool
  | .absent | .given | .live0 | .live => true
  | _ => false

/-- No error report or error store is pending. -/
def Pc.past (p : Pc) : Bool := p.rp.isNone && p.pS.isNone

structure Inv2 (s : St) : Prop where
  go : ∀ j, s.gone j = true → s.acked j = true
  lo : ∀ j, j ∈ s.lost → s.kind j = .seq ∧ s.acked j = false ∧ (s.pc j).owes = false ∧ s.pc j ≠ .absent
  sq : ∀ j, s.kind j = .seq → s.acked j = true → (s.pc j).past = true
  dg : s.dangling = true → ∃ j e o, (j, e) ∈ s.reports ∧ s.kind j = .val o ∧ s.pc j ≠ .absent
  s1 : ∀ j e, (s.pc j).rp = some e → s.sig j = some (.error e)
  s2 : ∀ j e, (j, e) ∈ s.reports → s.sig j = some (.error e)
  s3 : ∀ j e, s.sig j = some (.error e) → (s.pc j).rp = some e ∨ (j, e) ∈ s.reports
  s4 : ∀ j, (s.pc j).early = true → s.sig j = none
  s5 : s.outerStopped = true ↔ s.sig 0 = some .stopped
  s6 : ∀ j, s.sig j = none → (s.pc j).early = true

theorem inv2_init (b : Bool) : Inv2 (init b) := by
  constructor <;> simp [init, Pc.rp, Pc.early]

/-- A step that moves one child. -/
theorem inv2_gen {s s' : St} (hi : Inv2 s) {i : Nat} {p' : Pc}
    (hpc : s'.pc = upd s.pc i p')
    (hgo : ∀ j, s'.gone j = true → s'.acked j = true)
    (hlo : ∀ j, j ∈ s'.lost → j ≠ i → j ∈ s.lost) (hloi : i ∈ s'.lost → s'.kind i = .seq ∧ s'.acked i = false ∧
      p'.owes = false ∧ p' ≠ .absent)
    (hack : ∀ j, j ≠ i → s'.acked j = s.acked j)
    (hkind : ∀ j, j ≠ i → s'.kind j = s.kind j)
    (hsq : s'.kind i = .seq → s'.acked i = true → p'.past = true)
    (hdg : s'.dangling = true → s.dangling = true ∨ ∃ j e o, (j, e) ∈ s'.reports ∧ s'.kind j = .val o ∧ s'.pc j ≠ .absent)
    (hki : s'.kind i = s.kind i ∨ s.pc i = .absent) (hpa : p' ≠ .absent)
    (hsig : ∀ j, j ≠ i → s'.sig j = s.sig j)
    (h1 : ∀ e, p'.rp = some e → s'.sig i = some (.error e))
    (hrep : ∀ x, x ∈ s.reports → x ∈ s'.reports)
    (h2 : ∀ x, x ∈ s'.reports → x ∈ s.reports ∨ s'.sig x.1 = some (.error x.2))
    (hsm : ∀ e, s.sig i = some e → s'.sig i = some e)
    (h3 : ∀ e, s'.sig i = some (.error e) → p'.rp = some e ∨ (i, e) ∈ s'.reports)
    (h4 : p'.early = true ↔ s'.sig i = none)
    (h5 : s'.outerStopped = true ↔ s'.sig 0 = some .stopped) : Inv2 s' := by
  constructor
  · exact hgo
  · intro j hj
    rw [hpc]
    by_cases hji : j = i
    · subst hji; rw [upd_same]; exact hloi hj
    · rw [upd_other _ _ hji, hkind j hji, hack j hji]; exact hi.lo j (hlo j hj hji)
  · intro j hk ha
    rw [hpc]
    by_cases hji : j = i
    · subst hji; rw [upd_same]; exact hsq hk ha
    · rw [upd_other _ _ hji]; rw [hkind j hji] at hk; rw [hack j hji] at ha; exact hi.sq j hk ha
  · intro h
    rcases hdg h with h | h
    · obtain ⟨j, e, o, ha, hb, hc⟩ := hi.dg h
      refine ⟨j, e, o, hrep _ ha, ?_, ?_⟩
      · by_cases hji : j = i
        · subst hji
          rcases hki with h | h
          · rw [h]; exact hb
          · exact absurd h hc
        · rw [hkind j hji]; exact hb
      · rw [hpc]
        by_cases hji : j = i
        · subst hji; rw [upd_same]; exact hpa
        · rw [upd_other _ _ hji]; exact hc
    · exact h
  · intro j e h
    rw [hpc] at h
    by_cases hji : j = i
    · subst hji; rw [upd_same] at h; exact h1 e h
    · rw [upd_other _ _ hji] at h; rw [hsig j hji]; exact hi.s1 j e h
  · intro j e h
    rcases h2 _ h with h | h
    · have := hi.s2 j e h
      by_cases hji : j = i
      · subst hji; exact hsm _ this
      · rw [hsig j hji]; exact this
    · exact h
  · intro j e h
    rw [hpc]
    by_cases hji : j = i
    · subst hji; rw [upd_same]; exact h3 e h
    · rw [upd_other _ _ hji]; rw [hsig j hji] at h; exact (hi.s3 j e h).imp id (hrep _)
  · intro j h
    rw [hpc] at h
    by_cases hji : j = i
    · subst hji; rw [upd_same] at h; exact h4.1 h
    · rw [upd_other _ _ hji] at h; rw [hsig j hji]; exact hi.s4 j h
  · exact h5
  · intro j h
    rw [hpc]
    by_cases hji : j = i
    · subst hji; rw [upd_same]; exact h4.2 h
    · rw [upd_other _ _ hji]; rw [hsig j hji] at h; exact hi.s6 j h

macro "pcs2" : tactic => `(tactic| simp_all [cont, Pc.rp, Pc.pS, Pc.early, Pc.past, Pc.owes, repOf, storeOf,
  Op.isNote, progOuter, progSeq, progSeq0, progVal])

set_option hygiene false in
/-- Split on all programs. -/
macro "shapes2" hk:ident : tactic => `(tactic| (
  unfold okP at $hk:ident
  split at $hk:ident <;> first | (cases $hk:ident; done) | skip
  all_goals (first | (rename_i heq; cases heq; done) | skip)
  all_goals (rename_i heq; simp only [List.cons.injEq, true_and, reduceCtorEq, false_and, Op.note.injEq, Op.fail.injEq,
    Op.store.injEq, Op.except.injEq, Op.storeEx.injEq] at heq)
  all_goals (first | subst heq | (obtain ⟨hq1, hq2⟩ := heq; subst hq1 hq2))))

theorem sig_some {s : St} (h2 : Inv2 s) {i : Nat} (h : (s.pc i).early = false) : ∃ x, s.sig i = some x := by
  cases hs : s.sig i with
  | none => have := h2.s6 i hs; rw [h] at this; cases this
  | some x => exact ⟨x, rfl⟩

/-- A handler operation that neither reports an error nor stores one nor completes a next-receiver. -/
theorem inv2_quiet {s s' : St} (h2 : Inv2 s) {i : Nat} {p' : Pc} (he : (s.pc i).early = false)
    (hpc : s'.pc = upd s.pc i p') (hg : s'.gone = s.gone) (ha : s'.acked = s.acked) (hl : s'.lost = s.lost)
    (hk : s'.kind = s.kind) (hd : s'.dangling = s.dangling) (hsig : s'.sig = s.sig) (hr : s'.reports = s.reports)
    (ho : s'.outerStopped = s.outerStopped) (hp0 : s.pc i ≠ .absent)
    (he' : p'.early = false) (hrp : p'.rp = (s.pc i).rp) (hps : (s.pc i).pS = none → p'.pS = none)
    (how : p'.owes = (s.pc i).owes) (hpa : p' ≠ .absent) : Inv2 s' := by
  obtain ⟨x, hx⟩ := sig_some h2 he
  refine inv2_gen h2 hpc (by rw [hg, ha]; exact h2.go) (fun j h _ => by rw [← hl]; exact h) ?_ (fun _ _ => by rw [ha])
    (fun _ _ => by rw [hk]) ?_ (fun h => .inl (by rw [← hd]; exact h)) (.inl (by rw [hk])) hpa (fun _ _ => by rw [hsig])
    (fun e h => by rw [hsig]; rw [hrp] at h; exact h2.s1 i e h) (by rw [hr]; exact fun _ h => h)
    (fun _ h => .inl (by rw [← hr]; exact h)) (by rw [hsig]; exact fun _ h => h)
    (fun e h => by rw [hsig] at h; rw [hrp, hr]; exact h2.s3 i e h) (by rw [hsig, hx, he']; simp)
    (by rw [ho, hsig]; exact h2.s5)
  · intro h
    rw [hl] at h
    have := h2.lo i h
    rw [hk, ha, how]
    exact ⟨this.1, this.2.1, this.2.2.1, hpa⟩
  · intro h1 h3
    rw [hk] at h1; rw [ha] at h3
    have := h2.sq i h1 h3
    simp only [Pc.past, Bool.and_eq_true, Option.isNone_iff_eq_none] at this ⊢
    exact ⟨by rw [hrp]; exact this.1, hps this.2⟩

theorem inv2_note {s : St} (hi : Inv s) (h2 : Inv2 s) {i : Nat} {b : Bool} {ops : List Op}
    (hp : s.pc i = .run (.note b :: ops)) :
    (∀ o, s.kind i = .val o → Inv2 { s with noted := upd s.noted i true, pc := upd s.pc i (cont ops) }) ∧
    (s.kind i = .seq → Inv2 { s with acked := upd s.acked i true, pc := upd s.pc i (cont ops) }) := by
  have hk := hi.pk i
  simp only [hp, Pc.ok] at hk
  have hl := h2.lo i
  have hg := h2.go i
  have hs1 := h2.s1 i
  have hs3 := h2.s3 i
  obtain ⟨x, hx⟩ := sig_some h2 (i := i) (by simp [hp, Pc.early])
  have hnl : i ∉ s.lost := by intro h; have := (hl h).2.2.1; rw [hp] at this; simp [Pc.owes, Op.isNote] at this
  refine ⟨fun o ho => ?_, fun ho => ?_⟩
  all_goals shapes2 hk
  all_goals (first | (simp_all; done) | skip)
  all_goals rw [hp] at hs1 hs3
  iterate 2
    refine inv2_gen h2 rfl h2.go (fun j h _ => h) (fun h => absurd h hnl) (fun _ _ => rfl) (fun _ _ => rfl) (by simp [ho])
      (fun h => .inl h) (.inl rfl) (by simp [cont]) (fun _ _ => rfl) (by pcs2) (fun _ h => h) (fun _ h => .inl h)
      (fun _ h => h) (by pcs2) (by pcs2) h2.s5
  all_goals
    refine inv2_gen h2 rfl ?_ (fun j h _ => h) (fun h => absurd h hnl) (fun _ h => upd_other _ _ h) (fun _ _ => rfl)
      (by pcs2) (fun h => .inl h) (.inl rfl) (by simp [cont]) (fun _ _ => rfl) (by pcs2) (fun _ h => h) (fun _ h => .inl h)
      (fun _ h => h) (by pcs2) (by pcs2) h2.s5
    intro j h
    by_cases hji : j = i
    · subst hji; simp
    · dsimp only; rw [upd_other _ _ hji]; exact h2.go j h

theorem inv2_report {s s' : St} (hi : Inv s) (h2 : Inv2 s) {i e : Nat} {ops : List Op} {p' : Pc}
    (hp : s.pc i = .run (.fail e :: ops) ∨ s.pc i = .run (.except e :: ops))
    (hpc : s'.pc = upd s.pc i p') (hp' : p' = cont ops ∨ p' = .run (.rstop :: .store e :: ops) ∨
      p' = .run (.store e :: ops) ∨ p' = .run (.rstop :: .storeEx e :: ops) ∨ p' = .run (.storeEx e :: ops))
    (hg : s'.gone = s.gone) (ha : s'.acked = s.acked) (hl : s'.lost = s.lost)
    (hk : s'.kind = s.kind) (hd : s'.dangling = s.dangling) (hsig : s'.sig = s.sig)
    (hr : s'.reports = s.reports ++ [(i, e)]) (ho : s'.outerStopped = s.outerStopped) : Inv2 s' := by
  have hna : s.kind i = .seq → s.acked i = false := by
    intro hk
    cases h : s.acked i
    · rfl
    · have := h2.sq i hk h; rcases hp with hp | hp <;> simp [hp, Pc.past, Pc.rp, repOf] at this
  have hsg : s.sig i = some (.error e) := h2.s1 i e (by rcases hp with hp | hp <;> simp [hp, Pc.rp, repOf])
  have hpk := hi.pk i
  have hops : repOf ops = none ∧ ops ≠ [] ∧ (Pc.run ops).owes = (s.pc i).owes := by
    rcases hp with hp | hp
    all_goals
      simp only [hp, Pc.ok] at hpk
      shapes2 hpk
      all_goals simp [repOf, Pc.owes, hp, Op.isNote]
  have hc : cont ops = .run ops := by
    cases ops with
    | nil => exact absurd rfl hops.2.1
    | cons a l => rfl
  rw [hc] at hp'
  have hq : p'.rp = none ∧ p'.early = false ∧ p' ≠ .absent ∧ p'.owes = (Pc.run ops).owes := by
    rcases hp' with rfl | rfl | rfl | rfl | rfl <;> simp [Pc.rp, repOf, hops.1, Pc.early, Pc.owes, Op.isNote]
  refine inv2_gen h2 hpc (by rw [hg, ha]; exact h2.go) (fun j h _ => by rw [← hl]; exact h) ?_ (fun _ _ => by rw [ha])
    (fun _ _ => by rw [hk]) ?_ (fun h => .inl (by rw [← hd]; exact h)) (.inl (by rw [hk])) hq.2.2.1 (fun _ _ => by rw [hsig])
    (by simp [hq.1]) (by rw [hr]; intro x h; simp [h])
    ?_ (by rw [hsig]; exact fun _ h => h)
    ?_ (by rw [hsig, hsg, hq.2.1]; simp)
    (by rw [ho, hsig]; exact h2.s5)
  · intro h
    rw [hl] at h
    have := h2.lo i h
    rw [hk, ha, hq.2.2.2, hops.2.2]
    exact ⟨this.1, this.2.1, this.2.2.1, hq.2.2.1⟩
  · intro h1 h3
    rw [hk] at h1; rw [ha, hna h1] at h3; cases h3
  · intro x hx
    rw [hr] at hx
    rcases List.mem_append.1 hx with hx | hx
    · exact .inl hx
    · simp only [List.mem_singleton] at hx; subst hx; right; rw [hsig]; exact hsg
  · intro e' h
    rw [hsig, hsg] at h; cases h
    right; rw [hr]; simp

theorem inv2_store {s : St} (hi : Inv s) (h2 : Inv2 s) {i e : Nat} {ops : List Op} (hp : s.pc i = .run (.store e :: ops)) :
    Inv2 { s with store := some e, dangling := s.dangling || s.gone i, pc := upd s.pc i (cont ops) } := by
  have hps := hi.ps i e (by simp [hp, Pc.pS, storeOf])
  have hmem : (i, e) ∈ s.reports := List.mem_of_head? hps.2
  have hm : i ∈ s.agents := hi.mem (by simp [hp])
  have hkn := hi.kn i hm
  have hpk := hi.pk i
  simp only [hp, Pc.ok] at hpk
  have hops : repOf ops = none ∧ ops ≠ [] ∧ (Pc.run ops).owes = (s.pc i).owes ∧ storeOf ops = none := by
    shapes2 hpk
    all_goals simp [repOf, Pc.owes, hp, Op.isNote, storeOf]
  have hc : cont ops = .run ops := by
    cases ops with
    | nil => exact absurd rfl hops.2.1
    | cons a l => rfl
  rw [hc]
  obtain ⟨x, hx⟩ := sig_some h2 (i := i) (by simp [hp, Pc.early])
  refine inv2_gen (p' := .run ops) h2 rfl h2.go (fun j h _ => h) ?_ (fun _ _ => rfl)
    (fun _ _ => rfl) (by simp [Pc.past, Pc.rp, Pc.pS, hops.1, hops.2.2.2]) ?_ (.inl rfl) (by simp) (fun _ _ => rfl)
    (by simp [Pc.rp, hops.1]) (fun _ h => h) (fun _ h => .inl h) (fun _ h => h)
    ?_ (by simp [Pc.early, hx]) h2.s5
  · intro h
    have := h2.lo i h
    rw [hops.2.2.1]
    exact ⟨this.1, this.2.1, this.2.2.1, by simp⟩
  · intro h
    simp only [Bool.or_eq_true] at h
    rcases h with h | h
    · exact .inl h
    · right
      cases hk : s.kind i with
      | outer => rw [hk] at hkn; exact absurd (hkn.1 rfl) hps.1
      | seq =>
        have := h2.sq i hk (h2.go i h)
        simp [hp, Pc.past, Pc.pS, storeOf] at this
      | val o => exact ⟨i, e, o, hmem, hk, by simp⟩
  · intro e' h
    dsimp only at h ⊢
    rcases h2.s3 i e' h with h | h
    · simp [hp, Pc.rp, repOf, hops.1] at h
    · exact .inr h

theorem inv2_stepOp {s s' : St} (hi : Inv s) (h2 : Inv2 s) {i : Nat} (hs : stepOp s i = some s') : Inv2 s' := by
  unfold stepOp at hs
  split at hs
  · rename_i o ops hp
    have hpk := hi.pk i
    simp only [hp, Pc.ok] at hpk
    have he : (s.pc i).early = false := by simp [hp, Pc.early]
    split at hs
    · have := inv2_note hi h2 hp
      split at hs <;> cases hs
      · rename_i o ho; exact this.1 o ho
      · rename_i hk
        apply this.2
        cases h : s.kind i with
        | seq => rfl
        | val o => exact absurd h (hk o)
        | outer =>
          rw [h] at hpk
          unfold okP at hpk
          split at hpk <;> simp_all
    · split at hs <;> cases hs
      · exact inv2_report hi h2 (.inl hp) rfl (.inr (.inl rfl)) rfl rfl rfl rfl rfl rfl rfl rfl
      · exact inv2_report hi h2 (.inl hp) rfl (.inr (.inr (.inl rfl))) rfl rfl rfl rfl rfl rfl rfl rfl
      · exact inv2_report hi h2 (.inl hp) rfl (.inl rfl) rfl rfl rfl rfl rfl rfl rfl rfl
    · split at hs <;> cases hs
      · exact inv2_report hi h2 (.inr hp) rfl (.inr (.inr (.inr (.inl rfl)))) rfl rfl rfl rfl rfl rfl rfl rfl
      · exact inv2_report hi h2 (.inr hp) rfl (.inr (.inr (.inr (.inr rfl)))) rfl rfl rfl rfl rfl rfl rfl rfl
      · exact inv2_report hi h2 (.inr hp) rfl (.inl rfl) rfl rfl rfl rfl rfl rfl rfl rfl
    · cases hs
      shapes2 hpk
      all_goals (refine inv2_quiet h2 he (hpc := rfl) ?_ ?_ ?_ ?_ ?_ ?_ ?_ ?_ ?_ ?_ ?_ ?_ ?_ ?_ <;> first | rfl | (simp [hp]; done) | pcs2)
    · cases hs; exact inv2_store hi h2 hp
    · cases hs
      shapes2 hpk
      all_goals (refine inv2_quiet h2 he (hpc := rfl) ?_ ?_ ?_ ?_ ?_ ?_ ?_ ?_ ?_ ?_ ?_ ?_ ?_ ?_ <;> first | rfl | (simp [hp]; done) | pcs2)
    · split at hs <;> cases hs
      all_goals shapes2 hpk
      all_goals (refine inv2_quiet h2 he (hpc := rfl) ?_ ?_ ?_ ?_ ?_ ?_ ?_ ?_ ?_ ?_ ?_ ?_ ?_ ?_ <;> first | rfl | (simp [hp]; done) | pcs2)
    · split at hs <;> cases hs
      all_goals shapes2 hpk
      all_goals (refine inv2_quiet h2 he (hpc := rfl) ?_ ?_ ?_ ?_ ?_ ?_ ?_ ?_ ?_ ?_ ?_ ?_ ?_ ?_ <;> first | rfl | (simp [hp]; done) | pcs2)
    · cases hs
      shapes2 hpk
      all_goals (refine inv2_quiet h2 he (hpc := rfl) ?_ ?_ ?_ ?_ ?_ ?_ ?_ ?_ ?_ ?_ ?_ ?_ ?_ ?_ <;> first | rfl | (simp [hp]; done) | pcs2)
    · shapes2 hpk
      all_goals
        split at hs
        · cases hs
          (refine inv2_quiet h2 he (hpc := rfl) ?_ ?_ ?_ ?_ ?_ ?_ ?_ ?_ ?_ ?_ ?_ ?_ ?_ ?_ <;> first | rfl | (simp [hp]; done) | pcs2)
        · cases hs
          (refine inv2_quiet h2 he (hpc := rfl) ?_ ?_ ?_ ?_ ?_ ?_ ?_ ?_ ?_ ?_ ?_ ?_ ?_ ?_ <;> first | rfl | (simp [hp]; done) | pcs2)
        · split at hs <;> cases hs
          all_goals (refine inv2_quiet h2 he (hpc := rfl) ?_ ?_ ?_ ?_ ?_ ?_ ?_ ?_ ?_ ?_ ?_ ?_ ?_ ?_ <;> first | rfl | (simp [hp]; done) | pcs2)
  · cases hs

end Verif.MergeEach
