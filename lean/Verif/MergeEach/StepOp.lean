import Verif.MergeEach.Inv
/-! # The completion handlers preserve the invariant -/
namespace Verif.MergeEach

set_option maxHeartbeats 4000000

theorem sr_move {s : St} (hi : Inv s) {i : Nat} {p' : Pc} (h : (s.pc i).rs = false) :
    s.stoppable = true → s.compl ≠ .started → s.stopReq = true ∨ ∃ j, (upd s.pc i p' j).rs = true := by
  intro h1 h2
  refine (hi.sr h1 h2).imp id fun ⟨j, hj⟩ => ⟨j, ?_⟩
  rw [upd_other]
  · exact hj
  · rintro rfl; rw [h] at hj; cases hj

theorem os_move {s : St} (hi : Inv s) {i : Nat} {p' : Pc} (h : (s.pc i).bk = true → p'.bk = true) :
    s.outerStopped = true → s.compl ≠ .started ∨ (upd s.pc i p' 0).bk = true := by
  intro h1
  refine (hi.os h1).imp id fun hj => ?_
  by_cases hi0 : (0 : Nat) = i
  · subst hi0; rw [upd_same]; exact h hj
  · rw [upd_other _ _ hi0]; exact hj

theorem win_move {s : St} (hi : Inv s) {i : Nat} {p' : Pc} (h : (s.pc i).pS = p'.pS) (h' : (s.pc i).pE = p'.pE) :
    ∀ a e, s.reports.head? = some (a, e) →
      (a = 0 → s.ex = some e ∨ (upd s.pc i p' 0).pE = some e) ∧
      (a ≠ 0 → s.ex = none ∧ (s.store = some e ∨ (upd s.pc i p' a).pS = some e)) := by
  intro a e hh
  have hE : ∀ j, (upd s.pc i p' j).pE = (s.pc j).pE := by
    intro j; by_cases hj : j = i
    · subst hj; rw [upd_same, h']
    · rw [upd_other _ _ hj]
  have hS : ∀ j, (upd s.pc i p' j).pS = (s.pc j).pS := by
    intro j; by_cases hj : j = i
    · subst hj; rw [upd_same, h]
    · rw [upd_other _ _ hj]
  rw [hE, hS]
  exact hi.win a e hh

theorem owe_move {s : St} (hi : Inv s) {i : Nat} {ops : List Op} {p' : Pc} (hp : s.pc i = .run ops)
    (h : (s.pc i).owes = p'.owes) : i ≠ 0 → s.acked i = false → p'.owes = true ∨ s.noted i = true ∨ i ∈ s.lost := by
  intro h0 ha
  rw [← h]
  exact hi.owe i (hi.mem (by simp [hp])) h0 ha

set_option hygiene false in
/-- Split on the programs that start with the given operation. -/
macro "shapes" hk:ident : tactic => `(tactic| (
  unfold okP at $hk:ident
  split at $hk:ident <;> first | (cases $hk:ident; done) | skip
  all_goals (first | (rename_i heq; cases heq; done) | skip)
  all_goals (rename_i heq; simp only [List.cons.injEq, true_and, reduceCtorEq, false_and, Op.note.injEq, Op.fail.injEq,
    Op.store.injEq, Op.except.injEq, Op.storeEx.injEq] at heq)
  all_goals (first | subst heq | (obtain ⟨hq1, hq2⟩ := heq; subst hq1 hq2))))

macro "pcs" : tactic => `(tactic| simp_all [cont, Pc.w, Pc.f, Pc.pS, Pc.pE, Pc.bk, Pc.owes, Pc.ok, okP, storeOf, storeExOf,
  Op.reports, Op.isNote, Pc.rs])

theorem step_rstop {s : St} (hi : Inv s) {i : Nat} {ops : List Op} (hp : s.pc i = .run (.rstop :: ops)) :
    Inv { s with stopReq := s.stopReq || s.stoppable, pc := upd s.pc i (cont ops) } := by
  have hk := hi.pk i
  simp only [hp, Pc.ok] at hk
  have hb := hi.bkp i
  have h1 := hi.ps i
  have h2 := hi.pe i
  shapes hk
  all_goals
    rw [hp] at hb h1 h2
    refine inv_op hi hp rfl rfl rfl rfl rfl rfl rfl id (fun _ _ => rfl) (fun _ _ => rfl) id (by pcs)
      (owe_move hi hp (by pcs)) (by pcs) (by pcs)
      (by pcs) (tl_keep hi hp rfl rfl (by pcs)) (fun _ h => h)
      (by pcs) (by pcs) (win_move hi (by pcs) (by pcs))
      hi.rep hi.nex hi.stp id (by pcs)
      (os_move hi (by pcs)) ?_
    intro h _; left; simp [h]

theorem step_note {s : St} (hi : Inv s) {i : Nat} {b : Bool} {ops : List Op} (hp : s.pc i = .run (.note b :: ops)) :
    (∀ o, s.kind i = .val o → Inv { s with noted := upd s.noted i true, pc := upd s.pc i (cont ops) }) ∧
    (s.kind i = .seq → Inv { s with acked := upd s.acked i true, pc := upd s.pc i (cont ops) }) := by
  have hk := hi.pk i
  simp only [hp, Pc.ok] at hk
  have hb := hi.bkp i
  have h1 := hi.ps i
  have h2 := hi.pe i
  refine ⟨fun o ho => ?_, fun ho => ?_⟩
  all_goals shapes hk
  all_goals (first | (simp_all; done) | skip)
  all_goals rw [hp] at hb h1 h2
  · refine inv_op hi hp rfl rfl rfl rfl rfl rfl rfl id (fun _ _ => rfl) (fun _ h => upd_other _ _ h) id (by pcs)
      (by simp) (by pcs) (by pcs)
      (by pcs) (tl_keep hi hp rfl rfl (by pcs)) (fun _ h => h)
      (by pcs) (by pcs) (win_move hi (by pcs) (by pcs))
      hi.rep hi.nex hi.stp id (by pcs)
      (os_move hi (by pcs)) (sr_move hi (by pcs))
  · refine inv_op hi hp rfl rfl rfl rfl rfl rfl rfl id (fun _ _ => rfl) (fun _ h => upd_other _ _ h) id (by pcs)
      (by simp) (by pcs) (by pcs)
      (by pcs) (tl_keep hi hp rfl rfl (by pcs)) (fun _ h => h)
      (by pcs) (by pcs) (win_move hi (by pcs) (by pcs))
      hi.rep hi.nex hi.stp id (by pcs)
      (os_move hi (by pcs)) (sr_move hi (by pcs))
  all_goals
    refine inv_op hi hp rfl rfl rfl rfl rfl rfl rfl id (fun _ h => upd_other _ _ h) (fun _ _ => rfl) (by simp) (by pcs)
      (by simp) (by pcs) (by pcs)
      (by pcs) (tl_keep hi hp rfl rfl (by pcs)) (fun _ h => h)
      (by pcs) (by pcs) (win_move hi (by pcs) (by pcs))
      hi.rep hi.nex hi.stp id (by pcs)
      (os_move hi (by pcs)) (sr_move hi (by pcs))

theorem step_store {s : St} (hi : Inv s) {i e : Nat} {ops : List Op} (hp : s.pc i = .run (.store e :: ops)) :
    Inv { s with store := some e, dangling := s.dangling || s.gone i, pc := upd s.pc i (cont ops) } := by
  have hk := hi.pk i
  simp only [hp, Pc.ok] at hk
  have hb := hi.bkp i
  have h1 := hi.ps i
  have h2 := hi.pe i
  shapes hk
  all_goals
    rw [hp] at hb h1 h2
    have hh := h1 e (by pcs)
    have hr : s.reports ≠ [] := by intro h; rw [h] at hh; simp at hh
    refine inv_op hi hp rfl rfl rfl rfl rfl rfl rfl id (fun _ _ => rfl) (fun _ _ => rfl) id (by pcs)
      (owe_move hi hp (by pcs)) (by pcs) (by pcs)
      (by pcs) (tl_keep hi hp rfl rfl (by pcs)) (fun _ h => h)
      (by pcs) (by pcs) ?_
      hi.rep (fun h => absurd h hr) hi.stp id (by pcs)
      (os_move hi (by pcs)) (sr_move hi (by pcs))
    intro a e' ha
    have hw := hi.win a e' ha
    rw [hh.2] at ha; simp only [Option.some.injEq, Prod.mk.injEq] at ha
    obtain ⟨rfl, rfl⟩ := ha
    exact ⟨fun h => absurd h hh.1, fun _ => ⟨(hw.2 hh.1).1, .inl rfl⟩⟩

theorem step_storeEx {s : St} (hi : Inv s) {i e : Nat} {ops : List Op} (hp : s.pc i = .run (.storeEx e :: ops)) :
    Inv { s with ex := some e, pc := upd s.pc i (cont ops) } := by
  have hk := hi.pk i
  simp only [hp, Pc.ok] at hk
  have hb := hi.bkp i
  have h1 := hi.ps i
  have h2 := hi.pe i
  shapes hk
  all_goals
    rw [hp] at hb h1 h2
    have hh := h2 e (by pcs)
    have hr : s.reports ≠ [] := by intro h; rw [h] at hh; simp at hh
    refine inv_op hi hp rfl rfl rfl rfl rfl rfl rfl id (fun _ _ => rfl) (fun _ _ => rfl) id (by pcs)
      (owe_move hi hp (by pcs)) (by pcs) (by pcs)
      (by pcs) (tl_keep hi hp rfl rfl (by pcs)) (fun _ h => h)
      (by pcs) (by pcs) ?_
      hi.rep (fun h => absurd h hr) hi.stp id (by pcs)
      (os_move hi (by pcs)) (sr_move hi (by pcs))
    intro a e' ha
    rw [hh.2] at ha; simp only [Option.some.injEq, Prod.mk.injEq] at ha
    obtain ⟨rfl, rfl⟩ := ha
    exact ⟨fun h => .inl rfl, fun h => absurd hh.1 h⟩

theorem step_unreg {s : St} (hi : Inv s) {i : Nat} {ops : List Op} (hp : s.pc i = .run (.unreg :: ops)) :
    Inv { s with registered := false, pc := upd s.pc i (cont ops) } := by
  have hk := hi.pk i
  simp only [hp, Pc.ok] at hk
  have hb := hi.bkp i
  have h1 := hi.ps i
  have h2 := hi.pe i
  shapes hk
  all_goals
    rw [hp] at hb h1 h2
    refine inv_op hi hp rfl rfl rfl rfl rfl rfl rfl (by simp) (fun _ _ => rfl) (fun _ _ => rfl) id (by pcs)
      (owe_move hi hp (by pcs)) (by pcs) (by pcs)
      (by pcs) (tl_keep hi hp rfl rfl (by pcs)) (fun _ h => h)
      (by pcs) (by pcs) (win_move hi (by pcs) (by pcs))
      hi.rep hi.nex hi.stp id (by pcs)
      (os_move hi (by pcs)) (sr_move hi (by pcs))

theorem step_brk {s : St} (hi : Inv s) {i : Nat} {ops : List Op} (hp : s.pc i = .run (.brk :: ops)) :
    (s.compl = .started → Inv { s with compl := .stopped, pc := upd s.pc i (.run (.rstop :: ops)) }) ∧
    (s.compl ≠ .started → Inv { s with pc := upd s.pc i (cont ops) }) := by
  have hk := hi.pk i
  simp only [hp, Pc.ok] at hk
  have hb := hi.bkp i
  have h1 := hi.ps i
  have h2 := hi.pe i
  refine ⟨fun ho => ?_, fun ho => ?_⟩
  all_goals shapes hk
  all_goals
    rw [hp] at hb h1 h2
    have hb := hb (by pcs)
  · have hb' : i = 0 ∧ s.outerStopped = true := by simpa [ho] using hb
    have hr : s.reports = [] := by
      by_cases h : s.reports = []
      · exact h
      · have := hi.rep.2 h; rw [ho] at this; cases this
    refine inv_op hi hp rfl rfl rfl rfl rfl rfl rfl id (fun _ _ => rfl) (fun _ _ => rfl) id (by pcs)
      (owe_move hi hp (by pcs)) (by pcs) (by pcs)
      (by pcs) (tl_keep hi hp rfl rfl (by pcs)) (fun _ h => h)
      (by pcs) (by pcs) (win_move hi (by pcs) (by pcs))
      (by simp [hr]) hi.nex (fun _ => hb'.2) (by simp [ho]) (by pcs) (by simp) ?_
    intro _ _; right; exact ⟨i, by simp [Pc.rs]⟩
  all_goals first
    | (have := hi.kn i (hi.mem (by simp [hp])); simp_all; done)
    | (refine inv_op hi hp rfl rfl rfl rfl rfl rfl rfl id (fun _ _ => rfl) (fun _ _ => rfl) id (by pcs)
        (owe_move hi hp (by pcs)) (by pcs) (by pcs)
        (by pcs) (tl_keep hi hp rfl rfl (by pcs)) (fun _ h => h)
        (by pcs) (by pcs) (win_move hi (by pcs) (by pcs))
        hi.rep hi.nex hi.stp id (by pcs) (fun _ => .inl ho) (sr_move hi (by pcs)))

theorem reports_nil {s : St} (hi : Inv s) (h : s.compl ≠ .error) : s.reports = [] := by
  by_cases h' : s.reports = []
  · exact h'
  · exact absurd (hi.rep.2 h') h

theorem head_append {l : List (Nat × Nat)} (a : Nat × Nat) : ∀ x, l.head? = some x → (l ++ [a]).head? = some x := by
  cases l <;> simp

theorem step_fail_started {s : St} (hi : Inv s) {i e : Nat} {ops : List Op} (hp : s.pc i = .run (.fail e :: ops))
    (hc : s.compl = .started) : Inv
      { s with compl := .error, reports := s.reports ++ [(i, e)], pc := upd s.pc i (.run (.rstop :: .store e :: ops)) } := by
  have hk := hi.pk i
  simp only [hp, Pc.ok] at hk
  have hr := reports_nil hi (by simp [hc])
  have hn := hi.nex hr
  have hi0 := hi.kn i (hi.mem (by simp [hp]))
  shapes hk
  all_goals
    have h0 : i ≠ 0 := by intro h; rw [← hi0] at h; simp_all
    refine inv_op hi hp rfl rfl rfl rfl rfl rfl rfl id (fun _ _ => rfl) (fun _ _ => rfl) id (by pcs)
      (owe_move hi hp (by pcs)) (by pcs) (by pcs)
      (by pcs) (tl_keep hi hp rfl rfl (by pcs)) (by simp [hr])
      (by pcs) (by pcs) ?_
      (by simp) (by simp) (by simp) (by simp) (by simp) (by simp) ?_
    · intro a e' ha
      simp only [hr, List.nil_append, List.head?_cons, Option.some.injEq, Prod.mk.injEq] at ha
      obtain ⟨rfl, rfl⟩ := ha
      exact ⟨fun h => absurd h h0, fun _ => ⟨hn.1, .inr (by simp [Pc.pS, storeOf])⟩⟩
    · intro _ _; right; exact ⟨i, by simp [Pc.rs]⟩

theorem step_fail_stopped {s : St} (hi : Inv s) {i e : Nat} {ops : List Op} (hp : s.pc i = .run (.fail e :: ops))
    (hc : s.compl = .stopped) : Inv
      { s with compl := .error, reports := s.reports ++ [(i, e)], pc := upd s.pc i (.run (.store e :: ops)) } := by
  have hk := hi.pk i
  simp only [hp, Pc.ok] at hk
  have hr := reports_nil hi (by simp [hc])
  have hn := hi.nex hr
  have hi0 := hi.kn i (hi.mem (by simp [hp]))
  shapes hk
  all_goals
    have h0 : i ≠ 0 := by intro h; rw [← hi0] at h; simp_all
    refine inv_op hi hp rfl rfl rfl rfl rfl rfl rfl id (fun _ _ => rfl) (fun _ _ => rfl) id (by pcs)
      (owe_move hi hp (by pcs)) (by pcs) (by pcs)
      (by pcs) (tl_keep hi hp rfl rfl (by pcs)) (by simp [hr])
      (by pcs) (by pcs) ?_
      (by simp) (by simp) (by simp) (by simp) (by simp) (by simp) ?_
    · intro a e' ha
      simp only [hr, List.nil_append, List.head?_cons, Option.some.injEq, Prod.mk.injEq] at ha
      obtain ⟨rfl, rfl⟩ := ha
      exact ⟨fun h => absurd h h0, fun _ => ⟨hn.1, .inr (by simp [Pc.pS, storeOf])⟩⟩
    · intro h1 _; exact sr_move hi (by pcs) h1 (by simp [hc])

theorem step_report_error {s : St} (hi : Inv s) {i e : Nat} {ops : List Op}
    (hp : s.pc i = .run (.fail e :: ops) ∨ s.pc i = .run (.except e :: ops))
    (hc : s.compl = .error) : Inv { s with reports := s.reports ++ [(i, e)], pc := upd s.pc i (cont ops) } := by
  have hr : s.reports ≠ [] := hi.rep.1 hc
  rcases hp with hp | hp
  all_goals
    have hk := hi.pk i
    simp only [hp, Pc.ok] at hk
    shapes hk
    all_goals
      refine inv_op hi hp rfl rfl rfl rfl rfl rfl rfl id (fun _ _ => rfl) (fun _ _ => rfl) id (by pcs)
        (owe_move hi hp (by pcs)) (by pcs) (by pcs)
        (by pcs) (tl_keep hi hp rfl rfl (by pcs)) (head_append _)
        (by pcs) (by pcs) ?_
        (by simp [hc]) (by simp) (by simp [hc]) id (by simp [hc]) (by simp [hc]) (sr_move hi (by pcs))
      intro a e' ha
      refine win_move hi (by pcs) (by pcs) a e' ?_
      cases h : s.reports with
      | nil => exact absurd h hr
      | cons a l => simp only [h] at ha; simpa using ha

theorem step_except_started {s : St} (hi : Inv s) {i e : Nat} {ops : List Op} (hp : s.pc i = .run (.except e :: ops))
    (hc : s.compl = .started) : Inv
      { s with compl := .error, reports := s.reports ++ [(i, e)], pc := upd s.pc i (.run (.rstop :: .storeEx e :: ops)) } := by
  have hk := hi.pk i
  simp only [hp, Pc.ok] at hk
  have hr := reports_nil hi (by simp [hc])
  have hi0 := hi.kn i (hi.mem (by simp [hp]))
  shapes hk
  all_goals
    have h0 : i = 0 := by rw [← hi0]; simp_all
    refine inv_op hi hp rfl rfl rfl rfl rfl rfl rfl id (fun _ _ => rfl) (fun _ _ => rfl) id (by pcs)
      (owe_move hi hp (by pcs)) (by pcs) (by pcs)
      (by pcs) (tl_keep hi hp rfl rfl (by pcs)) (by simp [hr])
      (by pcs) (by pcs) ?_
      (by simp) (by simp) (by simp) (by simp) (by simp) (by simp) ?_
    · intro a e' ha
      simp only [hr, List.nil_append, List.head?_cons, Option.some.injEq, Prod.mk.injEq] at ha
      obtain ⟨rfl, rfl⟩ := ha
      subst h0
      exact ⟨fun h => .inr (by simp [Pc.pE, storeExOf]), fun h => absurd rfl h⟩
    · intro _ _; right; exact ⟨i, by simp [Pc.rs]⟩

theorem step_except_stopped {s : St} (hi : Inv s) {i e : Nat} {ops : List Op} (hp : s.pc i = .run (.except e :: ops))
    (hc : s.compl = .stopped) : Inv
      { s with compl := .error, reports := s.reports ++ [(i, e)], pc := upd s.pc i (.run (.storeEx e :: ops)) } := by
  have hk := hi.pk i
  simp only [hp, Pc.ok] at hk
  have hr := reports_nil hi (by simp [hc])
  have hi0 := hi.kn i (hi.mem (by simp [hp]))
  shapes hk
  all_goals
    have h0 : i = 0 := by rw [← hi0]; simp_all
    refine inv_op hi hp rfl rfl rfl rfl rfl rfl rfl id (fun _ _ => rfl) (fun _ _ => rfl) id (by pcs)
      (owe_move hi hp (by pcs)) (by pcs) (by pcs)
      (by pcs) (tl_keep hi hp rfl rfl (by pcs)) (by simp [hr])
      (by pcs) (by pcs) ?_
      (by simp) (by simp) (by simp) (by simp) (by simp) (by simp) ?_
    · intro a e' ha
      simp only [hr, List.nil_append, List.head?_cons, Option.some.injEq, Prod.mk.injEq] at ha
      obtain ⟨rfl, rfl⟩ := ha
      subst h0
      exact ⟨fun h => .inr (by simp [Pc.pE, storeExOf]), fun h => absurd rfl h⟩
    · intro h1 _; exact sr_move hi (by pcs) h1 (by simp [hc])

theorem step_dec {s : St} (hi : Inv s) {i : Nat} {ops : List Op} (hp : s.pc i = .run (.dec :: ops)) :
    (s.active = 1 → Inv { s with active := 0, pc := upd s.pc i (.run [.unreg, .finish]) }) ∧
    (s.active ≠ 1 → Inv { s with active := s.active - 1, pc := upd s.pc i .done }) := by
  have hk := hi.pk i
  simp only [hp, Pc.ok] at hk
  have hpos : s.active ≠ 0 := by
    intro h; have := hi.quiet h i; rw [hp] at this; simp [Pc.w] at this
  have hbeg : s.begun = true := by
    cases h : s.begun
    · exact absurd (hi.pre h).2.2 hpos
    · rfl
  refine ⟨fun ho => ?_, fun ho => ?_⟩
  all_goals shapes hk
  all_goals
    have hb := hi.bkp i
    rw [hp] at hb
  iterate 3
    refine inv_op hi hp rfl rfl rfl rfl rfl rfl rfl id (fun _ _ => rfl) (fun _ _ => rfl) id (by pcs)
      (owe_move hi hp (by pcs)) (by pcs) (by pcs)
      (by pcs; omega) (tl_keep hi hp rfl rfl (by pcs)) (fun _ h => h)
      (by pcs) (by pcs) (win_move hi (by pcs) (by pcs))
      hi.rep hi.nex hi.stp id (by pcs) (os_move hi (by pcs)) (sr_move hi (by pcs))
  all_goals
    refine inv_op hi hp rfl rfl rfl rfl rfl rfl rfl id (fun _ _ => rfl) (fun _ _ => rfl) id (by pcs)
      (owe_move hi hp (by pcs)) (by pcs) (by simp [hp, Pc.w]; omega)
      (by have : s.active - 1 ≠ 0 := by omega
          simp [hp, Pc.f, hpos, this]) (tl_keep hi hp rfl rfl (by pcs)) (fun _ h => h)
      (by pcs) (by pcs) (win_move hi (by pcs) (by pcs))
      hi.rep hi.nex hi.stp id (by pcs) (os_move hi (by pcs)) (sr_move hi (by pcs))

/-- While an error item is out, or the final call is about to be made, nothing is counted. -/
theorem active_zero {s : St} (hi : Inv s) {i : Nat} (h : (s.pc i).f = 1) : s.active = 0 ∧ s.begun = true := by
  have hm : i ∈ s.agents := hi.mem (by intro h'; rw [h'] at h; simp [Pc.f] at h)
  have := le_lsum (c := Pc.f) (f := s.pc) hm
  have hf := hi.fin
  split at hf
  · rename_i h'; exact ⟨h'.2, h'.1⟩
  · omega

/-- The final call to the receiver: the log is extended by `t`. -/
theorem inv_final {s : St} (hi : Inv s) {i : Nat} {p' : Pc} {t : List Ev}
    (hf : (s.pc i).f = 1) (hp' : p' = .done ∨ p' = .errItem) (hft : p'.f + terms t = 1)
    (htl : ∃ l t', s.log ++ t = l ++ t' ∧ Nexts l ∧ TailOk { s with log := s.log ++ t, pc := upd s.pc i p' } t') :
    Inv { s with log := s.log ++ t, pc := upd s.pc i p' } := by
  obtain ⟨h0, hb⟩ := active_zero hi hf
  have hw := hi.quiet h0 i
  have hpS : (s.pc i).pS = none ∧ (s.pc i).pE = none ∧ (s.pc i).bk = false ∧ (s.pc i).rs = false ∧
      (s.pc i).owes = false ∧ s.pc i ≠ .absent ∧ s.pc i ≠ .live := by
    have hk := hi.pk i
    revert hf hw hk
    generalize s.pc i = p
    intro hf hw hk
    cases p <;> simp [Pc.f, Pc.w] at hf hw ⊢
    · rename_i ops
      simp only [Pc.ok] at hk
      unfold okP at hk
      split at hk <;> first | (cases hk; done) | (simp at hf hw; done) | skip
      all_goals simp [Pc.pS, Pc.pE, Pc.bk, Pc.owes, Pc.rs, storeOf, storeExOf, Op.reports, Op.isNote]
    · simp [Pc.pS, Pc.pE, Pc.bk, Pc.owes, Pc.rs]
  have hq : p'.pS = none ∧ p'.pE = none ∧ p'.bk = false ∧ p'.owes = false ∧ p'.w = 0 ∧
      p'.ok (s.kind i) = true ∧ p' ≠ .absent ∧ p' ≠ .live ∧ p' ≠ .live0 ∧ p' ≠ .given := by
    rcases hp' with rfl | rfl <;> simp [Pc.pS, Pc.pE, Pc.bk, Pc.owes, Pc.w, Pc.ok]
  refine inv_op' hi hpS.2.2.2.2.2 rfl rfl rfl rfl rfl rfl rfl id (fun _ _ => rfl) (fun _ _ => rfl) id hq.2.2.2.2.2.2
    ?_ hq.2.2.2.2.2.1 (by simp only [hw, hq.2.2.2.2.1]) ?_ htl (fun _ h => h) (by simp [hq.1]) (by simp [hq.2.1])
    (win_move hi (by rw [hpS.1, hq.1]) (by rw [hpS.2.1, hq.2.1])) hi.rep hi.nex hi.stp id (by simp [hq.2.2.1])
    (os_move hi (by simp [hpS.2.2.1])) (sr_move hi hpS.2.2.2.1)
  · intro h1 h2
    have := hi.owe i (hi.mem hpS.2.2.2.2.2.1) h1 h2
    rw [hpS.2.2.2.2.1] at this
    simpa [hq.2.2.2.1] using this
  · dsimp only; rw [terms_append, hf]; omega

theorem upd_ne {s : St} {i : Nat} {p' : Pc} (h : ∀ j, s.pc j ≠ .errItem) (h' : p' ≠ .errItem) :
    ∀ j, upd s.pc i p' j ≠ .errItem := by
  intro j
  by_cases hj : j = i
  · subst hj; rw [upd_same]; exact h'
  · rw [upd_other _ _ hj]; exact h j

theorem step_finish_started {s : St} (hi : Inv s) {i : Nat} {ops : List Op} (hp : s.pc i = .run (.finish :: ops))
    (hc : s.compl = .started) : Inv { s with log := s.log ++ [.value], pc := upd s.pc i .done } := by
  have hf : (s.pc i).f = 1 := by simp [hp, Pc.f]
  obtain ⟨h0, hb⟩ := active_zero hi hf
  have hr := reports_nil hi (by simp [hc])
  have hos : s.outerStopped = false := by
    cases h : s.outerStopped
    · rfl
    · exfalso
      rcases hi.os h with h1 | h1
      · exact h1 hc
      · have hw := hi.quiet h0 0
        have hk := hi.pk 0
        generalize s.pc 0 = p at h1 hw hk
        cases p <;> simp [Pc.bk, Pc.w] at h1 hw
        rename_i ops
        simp only [Pc.ok] at hk
        unfold okP at hk
        split at hk <;> first | (cases hk; done) | (simp at h1 hw; done)
  exact inv_final hi hf (.inl rfl) rfl
    ⟨s.log, [.value], rfl, (hi.clean hp).1, .value (i := i) h0 hr hos (by simp)⟩

theorem step_finish_stopped {s : St} (hi : Inv s) {i : Nat} {ops : List Op} (hp : s.pc i = .run (.finish :: ops))
    (hc : s.compl = .stopped) : Inv { s with log := s.log ++ [.stopped], pc := upd s.pc i .done } := by
  have hf : (s.pc i).f = 1 := by simp [hp, Pc.f]
  obtain ⟨h0, hb⟩ := active_zero hi hf
  have hr := reports_nil hi (by simp [hc])
  exact inv_final hi hf (.inl rfl) rfl
    ⟨s.log, [.stopped], rfl, (hi.clean hp).1, .stopped h0 hr (hi.stp hc)⟩

/-- When nothing is counted the first error has been stored. -/
theorem stored {s : St} (hi : Inv s) (h0 : s.active = 0) {a e : Nat} (h : s.reports.head? = some (a, e)) :
    (a = 0 → s.ex = some e) ∧ (a ≠ 0 → s.ex = none ∧ s.store = some e) := by
  have hw := hi.win a e h
  have hE : ∀ j, (s.pc j).pE = none ∧ (s.pc j).pS = none := by
    intro j
    have hw := hi.quiet h0 j
    have hk := hi.pk j
    generalize s.pc j = p at hw hk
    cases p <;> simp [Pc.pE, Pc.pS]
    rename_i ops
    simp only [Pc.ok] at hk
    simp only [Pc.w] at hw
    unfold okP at hk
    split at hk <;> first | (cases hk; done) | (simp at hw; done) | simp [storeOf, storeExOf]
  rw [(hE 0).1, (hE a).2] at hw
  simpa using hw

theorem step_finish_error {s : St} (hi : Inv s) {i : Nat} {ops : List Op} (hp : s.pc i = .run (.finish :: ops))
    (hc : s.compl = .error) :
    (∀ e, s.ex = some e → Inv { s with log := s.log ++ [.error e], pc := upd s.pc i .done }) ∧
    (s.ex = none → Inv { s with log := s.log ++ [.errNext s.store], pc := upd s.pc i .errItem }) ∧
    (s.ex = none → ∀ e, Inv { s with log := s.log ++ [.error e], pc := upd s.pc i .done }) := by
  have hf : (s.pc i).f = 1 := by simp [hp, Pc.f]
  obtain ⟨h0, hb⟩ := active_zero hi hf
  have hr := hi.rep.1 hc
  obtain ⟨⟨a, e0⟩, hh⟩ : ∃ x, s.reports.head? = some x := by
    cases h : s.reports with
    | nil => exact absurd h hr
    | cons x l => exact ⟨x, rfl⟩
  have hst := stored hi h0 hh
  refine ⟨fun e he => ?_, fun he => ?_, fun he e => ?_⟩
  · have ha : a = 0 := by
      by_cases h : a = 0
      · exact h
      · rw [(hst.2 h).1] at he; cases he
    subst ha
    have := hst.1 rfl
    rw [he] at this; cases this
    exact inv_final hi hf (.inl rfl) rfl
      ⟨s.log, _, rfl, (hi.clean hp).1, by refine .error ?_ ?_; exact h0; exact hh⟩
  all_goals
    have ha : a ≠ 0 := by
      intro h; rw [hst.1 h] at he; cases he
    have hsto := (hst.2 ha).2
  · refine inv_final (t := [.errNext s.store]) hi hf (.inr rfl) rfl
      ⟨s.log, [.errNext (some e0)], by rw [hsto], (hi.clean hp).1, by refine .item (a := a) (j := i) ?_ ?_ ha (by simp); exact h0; exact hh⟩
  · exact inv_final hi hf (.inl rfl) rfl
      ⟨s.log, [.error e], rfl, (hi.clean hp).1, by refine .thrown (a := a) (e := e0) ?_ ?_ ha; exact h0; exact hh⟩

theorem step_errAck {s s' : St} (hi : Inv s) {i : Nat} (hs : stepErrAck s i = some s') : Inv s' := by
  simp only [stepErrAck] at hs
  split at hs <;> cases hs
  rename_i hp
  have hf : (s.pc i).f = 1 := by simp [hp, Pc.f]
  obtain ⟨h0, hb⟩ := active_zero hi hf
  obtain ⟨l, t, hl, hn, ht⟩ := hi.tl
  have hm : i ∈ s.agents := hi.mem (by simp [hp])
  have hle := le_lsum (c := Pc.f) (f := s.pc) hm
  have hfin := hi.fin
  rw [if_pos ⟨hb, h0⟩, hl, terms_append, terms_nexts hn] at hfin
  have h1 : terms t = 0 := by omega
  refine inv_final hi hf (.inl rfl) (by split <;> rfl) ?_
  cases ht with
  | nil h' => exact absurd hp (h' i)
  | unstarted h' => rw [h'] at hm; cases hm
  | item h0' h1' h2 h3 =>
    rename_i a e j
    split
    · rename_i hr
      simp only [Bool.and_eq_true] at hr
      exact ⟨l, [.errNext (some e), .stopped], by rw [hl]; simp, hn, by refine .itemStopped (a := a) ?_ ?_ h2 ?_ ?_ <;> first | exact h0 | exact h1' | exact hr.2 | exact hr.1⟩
    · exact ⟨l, [.errNext (some e), .value], by rw [hl]; simp, hn, by refine .itemValue (a := a) ?_ ?_ h2; exact h0; exact h1'⟩
  | _ => simp [terms, Ev.term] at h1

theorem inv_stepOp {s s' : St} (hi : Inv s) {i : Nat} (hs : stepOp s i = some s') : Inv s' := by
  unfold stepOp at hs
  split at hs
  · rename_i o ops hp
    have hkn := hi.kn i (hi.mem (by simp [hp]))
    split at hs
    · have := step_note hi hp
      split at hs <;> cases hs
      · rename_i o ho; exact this.1 o ho
      · rename_i hk
        apply this.2
        cases h : s.kind i with
        | seq => rfl
        | val o => exact absurd h (hk o)
        | outer =>
          have hpk := hi.pk i
          rw [hp, h] at hpk
          simp only [Pc.ok] at hpk
          unfold okP at hpk
          split at hpk <;> simp_all
    · split at hs <;> cases hs <;> rename_i hc
      · exact step_fail_started hi hp hc
      · exact step_fail_stopped hi hp hc
      · exact step_report_error hi (.inl hp) hc
    · split at hs <;> cases hs <;> rename_i hc
      · exact step_except_started hi hp hc
      · exact step_except_stopped hi hp hc
      · exact step_report_error hi (.inr hp) hc
    · cases hs; exact step_rstop hi hp
    · cases hs; exact step_store hi hp
    · cases hs; exact step_storeEx hi hp
    · split at hs <;> cases hs <;> rename_i hc
      · exact (step_brk hi hp).1 hc
      · exact (step_brk hi hp).2 hc
    · split at hs <;> cases hs <;> rename_i hc
      · exact (step_dec hi hp).1 hc
      · exact (step_dec hi hp).2 hc
    · cases hs; exact step_unreg hi hp
    · split at hs
      · rename_i hc; cases hs; exact step_finish_started hi hp hc
      · rename_i hc; cases hs; exact step_finish_stopped hi hp hc
      · rename_i hc
        have := step_finish_error hi hp hc
        split at hs <;> cases hs <;> rename_i he
        · exact this.1 _ he
        · exact this.2.1 he
  · cases hs

theorem step_opThrow {s s' : St} (hi : Inv s) {i e : Nat} (hs : stepOpThrow s i e = some s') : Inv s' := by
  simp only [stepOpThrow] at hs
  split at hs <;> cases hs
  rename_i h
  exact (step_finish_error hi h.1 h.2.1).2.2 h.2.2 e

end Verif.MergeEach
