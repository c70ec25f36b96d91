import Verif.Timed.InvRun
/-! # `timed_thread_context` — second invariant: firing order, waiting -/
namespace Verif.Timed

/-- The operation leaves the heap. -/
def Ev.leaves (i : Nat) : Ev → Bool
  | .fire j => j == i
  | .cancel j => j == i
  | _ => false
def Ev.quiet : Ev → Bool
  | .done _ _ _ => true
  | _ => false
/-- The run thread is delivering a value to this operation. -/
def RPc.v : RPc → Option Nat
  | .val i => some i
  | .fin i .value _ => some i
  | _ => none

/-- `i` fired, and the run thread did nothing but completions since. -/
def FiredLast (log : List Ev) (i : Nat) : Prop := ∃ p q, log = p ++ Ev.fire i :: q ∧ ∀ e ∈ q, e.quiet = true

structure Inv2 (s : St) : Prop where
  o1 : ∀ j, s.log.countP (Ev.leaves j) ≤ 1
  o1a : ∀ j, Ev.cancel j ∈ s.log → s.ss j = .held ∨ s.ss j = .gone
  o2 : ∀ i, s.run.v = some i → FiredLast s.log i
  o3 : ∀ pre i t post, s.log = pre ++ Ev.done i .value t :: post → FiredLast pre i
  w1 : ∀ d, s.run = .wait d → ∀ i ∈ s.heap, s.snap < s.dl i ∧ d ≤ s.dl i
  w2 : s.run = .popping false → ∀ e ∈ s.q, e.2 = true
  w3 : s.run = .exit → s.heap = []

theorem FiredLast.snoc {log : List Ev} {i : Nat} {e : Ev} (h : FiredLast log i) (he : e.quiet = true) :
    FiredLast (log ++ [e]) i := by
  obtain ⟨p, q, rfl, hq⟩ := h
  exact ⟨p, q ++ [e], by simp, by intro x hx; rcases List.mem_append.1 hx with hx | hx; exact hq x hx; simp_all⟩

theorem o3_snoc {log : List Ev} {e : Ev} (h : ∀ pre i t post, log = pre ++ Ev.done i .value t :: post → FiredLast pre i)
    (he : ∀ i t, e = .done i .value t → FiredLast log i) :
    ∀ pre i t post, log ++ [e] = pre ++ Ev.done i .value t :: post → FiredLast pre i := by
  intro pre i t post hl
  rcases List.eq_nil_or_concat post with rfl | ⟨p, x, rfl⟩
  · have h1 := List.append_inj_right' hl rfl
    have h2 := List.append_inj_left' hl rfl
    subst h2
    exact he i t (by simpa using h1)
  · have h2 : log ++ [e] = (pre ++ Ev.done i .value t :: p) ++ [x] := by simpa using hl
    exact h pre i t p (List.append_inj_left' h2 rfl)

theorem o1_snoc {log : List Ev} {e : Ev} {j : Nat} (h : log.countP (Ev.leaves j) ≤ 1)
    (he : e.leaves j = true → log.countP (Ev.leaves j) = 0) : (log ++ [e]).countP (Ev.leaves j) ≤ 1 := by
  rw [List.countP_append]
  by_cases hj : e.leaves j = true
  · simp [he hj, hj]
  · simp [hj, h]

theorem count_leaves_zero {s : St} (h : Inv s) (h2 : Inv2 s) {j : Nat} (hj : s.ss j = .heap) :
    s.log.countP (Ev.leaves j) = 0 := by
  rw [List.countP_eq_zero]
  intro e he hl
  cases e <;> simp [Ev.leaves] at hl
  · subst hl; have := h.ordA _ he; simp [hj] at this
  · subst hl; have := h2.o1a _ he; simp [hj] at this

@[simp, grind =] theorem overlap_v (r : RPc) : r.overlap.v = r.v := by cases r <;> rfl
theorem overlap_wait (r : RPc) (d : Nat) : r.overlap = .wait d ↔ r = .wait d := by
  cases r <;> simp [RPc.overlap]
theorem overlap_exit (r : RPc) : r.overlap = .exit ↔ r = .exit := by
  cases r <;> simp [RPc.overlap]
theorem overlap_popping (r : RPc) : r.overlap ≠ .popping false := by
  cases r <;> simp [RPc.overlap]

theorem linkCmd_true {c : Cmd} {q : List (Cmd × Bool)} (h : ∀ e ∈ q, e.2 = true) : ∀ e ∈ linkCmd c q, e.2 = true := by
  intro e he
  simp only [linkCmd, List.mem_map] at he
  obtain ⟨x, hx, rfl⟩ := he
  split
  · rfl
  · exact h x hx

/-- A completion with `stopped`, or any step that does not append to the log. -/
theorem inv2_same {s s' : St} (h2 : Inv2 s) (hlog : s'.log = s.log) (hss : ∀ j, s.ss j = .held ∨ s.ss j = .gone → s'.ss j = .held ∨ s'.ss j = .gone)
    (hrun : s'.run.v = s.run.v) (hw1 : ∀ d, s'.run = .wait d → ∀ i ∈ s'.heap, s'.snap < s'.dl i ∧ d ≤ s'.dl i)
    (hw2 : s'.run = .popping false → ∀ e ∈ s'.q, e.2 = true) (hw3 : s'.run = .exit → s'.heap = []) : Inv2 s' := by
  constructor
  · rw [hlog]; exact h2.o1
  · rw [hlog]; intro j hj; exact hss j (h2.o1a j hj)
  · rw [hlog, hrun]; exact h2.o2
  · rw [hlog]; exact h2.o3
  · exact hw1
  · exact hw2
  · exact hw3

theorem inv2_stop {s s' : St} (h2 : Inv2 s) (i t : Nat) (hlog : s'.log = s.log ++ [.done i .stopped t])
    (hss : s'.ss = s.ss) (hrun : s'.run = s.run) (hheap : s'.heap = s.heap) (hsnap : s'.snap = s.snap)
    (hdl : s'.dl = s.dl) (hq : s'.q = s.q) : Inv2 s' := by
  constructor
  · rw [hlog]; intro j; exact o1_snoc (h2.o1 j) (by simp [Ev.leaves])
  · rw [hlog, hss]; intro j hj
    exact h2.o1a j (by simpa using hj)
  · rw [hlog, hrun]; intro j hj; exact (h2.o2 j hj).snoc rfl
  · rw [hlog]; exact o3_snoc h2.o3 (by simp)
  · rw [hrun, hheap, hsnap, hdl]; exact h2.w1
  · rw [hrun, hq]; exact h2.w2
  · rw [hrun, hheap]; exact h2.w3

theorem inv2_step {s s' : St} (a : Act) (h : Inv s) (h2 : Inv2 s) (hs : step s a = some s') : Inv2 s' := by
  cases a with
  | tick => simp only [step] at hs; cases hs; exact inv2_same h2 rfl (fun _ h => h) rfl h2.w1 h2.w2 h2.w3
  | start i d =>
    simp only [step] at hs; split at hs <;> cases hs
    rename_i hi
    refine inv2_same h2 rfl (fun _ h => h) rfl ?_ h2.w2 h2.w3
    intro d hd j hj
    have : j ≠ i := by
      rintro rfl; have h3 := (h.hM j).1 hj; have := h.spPre j (.inl hi); simp [h3] at this
    simpa [upd_other _ _ this] using h2.w1 d hd j hj
  | reqStop i =>
    simp only [step] at hs; split at hs <;> cases hs
    exact inv2_same h2 rfl (fun _ h => h) rfl h2.w1 h2.w2 h2.w3
  | cbBegin i =>
    simp only [step] at hs; split at hs <;> cases hs
    exact inv2_same h2 rfl (fun _ h => h) rfl h2.w1 h2.w2 h2.w3
  | ctxStop => simp only [step] at hs; cases hs; exact inv2_same h2 rfl (fun _ h => h) rfl h2.w1 h2.w2 h2.w3
  | starter i b =>
    simp only [step] at hs
    unfold stepStarter at hs
    split at hs
    case _ hp =>
      split at hs <;> cases hs <;> exact inv2_same h2 rfl (fun _ h => h) rfl h2.w1 h2.w2 h2.w3
    case _ hp =>
      split at hs <;> cases hs <;> exact inv2_same h2 rfl (fun _ h => h) rfl h2.w1 h2.w2 h2.w3
    case _ hp =>
      have h1 := h.spPre i (by simp [hp])
      split at hs <;> cases hs
      · refine inv2_same h2 rfl ?_ rfl h2.w1 h2.w2 h2.w3
        intro j hj
        have : j ≠ i := by rintro rfl; simp [h1] at hj
        simpa [St.touch, upd_other _ _ this] using hj
      · exact inv2_same h2 rfl (fun _ h => h) rfl h2.w1 h2.w2 h2.w3
    case _ hp =>
      split at hs <;> cases hs <;> exact inv2_same h2 rfl (fun _ h => h) rfl h2.w1 h2.w2 h2.w3
    case _ hp =>
      have h1 := (h.spSub i).1 (by simp [hp])
      cases hs
      refine inv2_same h2 rfl ?_ (by simp) ?_ ?_ ?_
      · intro j hj
        have : j ≠ i := by rintro rfl; simp [h1] at hj
        simpa [St.touch, upd_other _ _ this] using hj
      · intro d hd; exact h2.w1 d ((overlap_wait _ _).1 hd)
      · intro hd; exact absurd hd (overlap_popping _)
      · intro hd; exact h2.w3 ((overlap_exit _).1 hd)
    case _ hp =>
      cases hs
      exact inv2_same h2 rfl (fun _ h => h) rfl h2.w1 (fun hd => linkCmd_true (h2.w2 hd)) h2.w3
    case _ hp => cases hs; exact inv2_same h2 rfl (fun _ h => h) rfl h2.w1 h2.w2 h2.w3
    case _ hp => cases hs; exact inv2_same h2 rfl (fun _ h => h) rfl h2.w1 h2.w2 h2.w3
    case _ hp =>
      cases hs
      refine inv2_same h2 rfl ?_ rfl h2.w1 h2.w2 h2.w3
      intro j hj
      by_cases he : j = i
      · subst he; simp
      · simpa [St.touch, upd_other _ _ he] using hj
    case _ hp =>
      split at hs <;> cases hs
      exact inv2_stop h2 i s.now rfl rfl rfl rfl rfl rfl rfl
    case _ hp =>
      split at hs <;> cases hs
      exact inv2_stop h2 i s.now rfl rfl rfl rfl rfl rfl rfl
    all_goals cases hs
  | stopper i b =>
    simp only [step] at hs
    unfold stepStopper at hs
    split at hs
    case _ hp =>
      split at hs <;> cases hs <;> exact inv2_same h2 rfl (fun _ h => h) rfl h2.w1 h2.w2 h2.w3
    case _ hp =>
      split at hs <;> cases hs <;> exact inv2_same h2 rfl (fun _ h => h) rfl h2.w1 h2.w2 h2.w3
    case _ hp =>
      cases hs
      refine inv2_same h2 rfl (fun _ h => h) (by simp) ?_ ?_ ?_
      · intro d hd; exact h2.w1 d ((overlap_wait _ _).1 hd)
      · intro hd; exact absurd hd (overlap_popping _)
      · intro hd; exact h2.w3 ((overlap_exit _).1 hd)
    case _ hp =>
      cases hs
      exact inv2_same h2 rfl (fun _ h => h) rfl h2.w1 (fun hd => linkCmd_true (h2.w2 hd)) h2.w3
    case _ hp => cases hs; exact inv2_same h2 rfl (fun _ h => h) rfl h2.w1 h2.w2 h2.w3
    case _ hp => cases hs; exact inv2_same h2 rfl (fun _ h => h) rfl h2.w1 h2.w2 h2.w3
    case _ hp => cases hs; exact inv2_same h2 rfl (fun _ h => h) rfl h2.w1 h2.w2 h2.w3
    case _ hp => cases hs; exact inv2_stop h2 i s.now rfl rfl rfl rfl rfl rfl rfl
    all_goals cases hs
  | run nul =>
    simp only [step] at hs
    unfold stepRun at hs
    split at hs
    case _ hp =>
      cases hs
      refine inv2_same h2 rfl (fun _ h => h) (by simp [hp, RPc.v]) (by simp) ?_ (by simp)
      intro hd
      simpa using hd
    case _ o hp =>
      split at hs
      · split at hs <;> cases hs
        exact inv2_same h2 rfl (fun _ h => h) (by simp [hp, RPc.v]) (by simp) (by simp) (by simp)
      · split at hs
        · rename_i i q hq
          have hq := popHead_eq hq
          have h1 : s.ss i = .queued := (h.qS i).1 (by simp [hq])
          cases hs
          constructor
          · intro j; exact o1_snoc (h2.o1 j) (by simp [Ev.leaves])
          · intro j hj
            have hj2 := h2.o1a j (by simpa using hj)
            have : j ≠ i := by rintro rfl; rw [h1] at hj2; simp at hj2
            have hj := hj2
            simpa [St.touch, upd_other _ _ this] using hj
          · simp [RPc.v]
          · exact o3_snoc h2.o3 (by simp)
          · simp
          · simp
          · simp
        · rename_i i q hq
          have hq := popHead_eq hq
          split at hs <;> cases hs
          · rename_i hm
            have h1 := (h.hM i).1 hm
            constructor
            · intro j; refine o1_snoc (h2.o1 j) ?_
              intro hl; simp [Ev.leaves] at hl; subst hl; exact count_leaves_zero h h2 h1
            · intro j hj
              by_cases he : j = i
              · subst he; simp
              · have hj := h2.o1a j (by simpa [he] using hj)
                simpa [St.touch, upd_other _ _ he] using hj
            · simp [RPc.v]
            · exact o3_snoc h2.o3 (by simp)
            · simp
            · simp
            · simp
          · exact inv2_same h2 rfl (fun _ h => h) (by simp [hp, RPc.v]) (by simp) (by simp) (by simp)
        · cases hs
    case _ i hp =>
      cases hs
      simp only [St.release, St.touch]
      refine inv2_same h2 rfl ?_ ?_ ?_ ?_ ?_
      · intro j hj
        by_cases he : j = i
        · subst he; simp
        · simpa [upd_other _ _ he] using hj
      all_goals dsimp only
      all_goals split <;> simp [hp, RPc.v, RPc.cont]
    case _ i hp =>
      cases hs
      simp only [St.release, St.touch]
      refine inv2_same h2 rfl (fun _ h => h) ?_ ?_ ?_ ?_
      all_goals dsimp only
      all_goals split <;> simp [hp, RPc.v, RPc.cont]
    case _ hp =>
      cases hs
      exact inv2_same h2 rfl (fun _ h => h) (by simp [hp, RPc.v]) (by simp) (by simp) (by simp)
    case _ hp =>
      split at hs
      · rename_i i l hh
        have hP := h.hP
        rw [hh, List.pairwise_cons] at hP
        split at hs <;> cases hs
        · have h1 : s.ss i = .heap := (h.hM i).1 (by simp [hh])
          constructor
          · intro j; refine o1_snoc (h2.o1 j) ?_
            intro hl; simp [Ev.leaves] at hl; subst hl; exact count_leaves_zero h h2 h1
          · intro j hj
            have hj2 := h2.o1a j (by simpa using hj)
            have : j ≠ i := by rintro rfl; rw [h1] at hj2; simp at hj2
            have hj := hj2
            simpa [upd_other _ _ this] using hj
          · intro j hj
            simp [RPc.v] at hj; subst hj
            exact ⟨s.log, [], rfl, by simp⟩
          · exact o3_snoc h2.o3 (by simp)
          · simp
          · simp
          · simp
        · rename_i hn
          refine inv2_same h2 rfl (fun _ h => h) (by simp [hp, RPc.v]) ?_ (by simp) (by simp)
          intro d hd j hj
          cases hd
          rw [hh] at hj
          rcases List.mem_cons.1 hj with rfl | hj
          · exact ⟨by simp only []; omega, Nat.le_refl _⟩
          · have := hP.1 j hj
            simp only [before, Bool.or_eq_true, Bool.and_eq_true, Bool.not_eq_true', decide_eq_true_eq, decide_eq_false_iff_not] at this
            simp only []
            omega
      · rename_i hh
        cases hs
        refine inv2_same h2 rfl (fun _ h => h) (by simp [hp, RPc.v]) ?_ (by simp) (by simp)
        intro d hd j hj
        simp [hh] at hj
    case _ i hp =>
      have hf := h2.o2 i (by simp [hp, RPc.v])
      cases hs
      simp only [St.release, St.touch]
      constructor
      · exact h2.o1
      · intro j hj
        have hj := h2.o1a j hj
        by_cases he : j = i
        · subst he; simp
        · simpa [upd_other _ _ he] using hj
      · intro j hj
        dsimp only at hj
        split at hj <;> simp [RPc.v, RPc.cont] at hj
        subst hj; exact hf
      · exact h2.o3
      all_goals dsimp only
      all_goals split <;> simp [RPc.cont]
    case _ d hp =>
      split at hs <;> cases hs
      refine inv2_same h2 rfl (fun _ h => h) ?_ ?_ ?_ ?_
      all_goals dsimp only
      all_goals split <;> simp [hp, RPc.v]
    case _ hp =>
      split at hs <;> cases hs
      exact inv2_same h2 rfl (fun _ h => h) (by simp [hp, RPc.v]) (by simp) (by simp) (by simp)
    case _ hp =>
      split at hs
      · rename_i i l hh
        have h1 : s.ss i = .heap := (h.hM i).1 (by simp [hh])
        cases hs
        constructor
        · intro j; refine o1_snoc (h2.o1 j) ?_
          intro hl; simp [Ev.leaves] at hl; subst hl; exact count_leaves_zero h h2 h1
        · intro j hj
          by_cases he : j = i
          · subst he; simp
          · have hj := h2.o1a j (by simpa [he] using hj)
            simpa [upd_other _ _ he] using hj
        · simp [RPc.v]
        · exact o3_snoc h2.o3 (by simp)
        · simp
        · simp
        · simp
      · rename_i hh
        cases hs
        exact inv2_same h2 rfl (fun _ h => h) (by simp [hp, RPc.v]) (by simp) (by simp) (fun _ => hh)
    case _ i hp =>
      cases hs
      simp only [St.release, St.touch]
      refine inv2_same h2 rfl ?_ ?_ ?_ ?_ ?_
      · intro j hj
        by_cases he : j = i
        · subst he; simp
        · simpa [upd_other _ _ he] using hj
      all_goals dsimp only
      all_goals split <;> simp [hp, RPc.v, RPc.cont]
    case _ hp => cases hs
    case _ i o k hp =>
      split at hs <;> cases hs
      simp only [St.complete]
      have hk : (RPc.cont i k).v = none ∧ (∀ d, RPc.cont i k ≠ .wait d) ∧ RPc.cont i k ≠ .popping false ∧
          RPc.cont i k ≠ .exit := by
        match k with
        | 0 => simp [RPc.cont, RPc.v]
        | 1 => simp [RPc.cont, RPc.v]
        | 2 => simp [RPc.cont, RPc.v]
        | 3 => simp [RPc.cont, RPc.v]
      constructor
      · intro j; exact o1_snoc (h2.o1 j) (by simp [Ev.leaves])
      · intro j hj; exact h2.o1a j (by simpa using hj)
      · intro j hj; simp [hk.1] at hj
      · refine o3_snoc h2.o3 ?_
        intro j t hj
        cases hj
        exact h2.o2 i (by simp [hp, RPc.v])
      · intro d hd; exact absurd hd (hk.2.1 d)
      · intro hd; exact absurd hd hk.2.2.1
      · intro hd; exact absurd hd hk.2.2.2

theorem inv2_reach {s : St} (h : Reachable s) : Inv2 s := by
  refine Reach.inv' Inv2 ?_ ?_ s h
  · constructor <;> simp [init, RPc.v]
  · intro s a s' hr hi hs
    exact inv2_step a (inv_reach hr) hi hs

end Verif.Timed
