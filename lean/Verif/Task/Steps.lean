import Verif.Task.Keep
namespace Verif.Task
set_option maxHeartbeats 4000000

theorem top_ne {b0 : Body} {s : St} {i : Nat} {t : List Nat} (h : Inv b0 s (i :: t)) {j : Nat} (hj : j ∈ t) :
    j ≠ i := by
  intro he; subst he; exact not_mem_tail h.srt hj

/-- What can be said about the non-top part of the chain. -/
theorem cb_tail {b0 : Body} {s : St} {i : Nat} {t : List Nat} (h : Inv b0 s (i :: t)) (ht : top s.ctl = some i)
    {j : Nat} (hj : j ∈ t) : (s.fr j).cb = (s.fr j).cfg.own := by
  have h1 := h.cbs j (by simp [hj])
  have h2 := top_ne h hj
  rw [h1, ht]
  have : ¬ (some i = some j) := by simp; omega
  simp [this]

theorem cb_top {b0 : Body} {s : St} {i : Nat} {t : List Nat} (h : Inv b0 s (i :: t)) (ht : top s.ctl = some i) :
    (s.fr i).cb = ((s.fr i).cfg.own && !noCb s.ctl) := by
  have h1 := h.cbs i (by simp)
  rw [h1, ht]; simp

theorem inv_register {b0 : Body} {s : St} {l : List Nat} (h : Inv b0 s l) {i : Nat} (hc : s.ctl = .start i) :
    Inv b0 (register s i) l := by
  have htop : top s.ctl = some i := by rw [hc]; rfl
  obtain ⟨t, rfl⟩ := h.top_cons htop
  have hi : i ∈ i :: t := by simp
  have hlv := h.live i hi
  have hfl := h.flags i hi (fun _ => by rw [hc]; rfl)
  have hse : ∀ r, denRoot b0 (s.log ++ [.reg none] ++ r) =
      (den (s.fr i).body r).bind fun x => up s.fr t x.1 x.2 := by
    intro r
    have := h.sem (.reg none :: r)
    rw [hc] at this
    simpa [sem] using this
  have hol := outer_live h hi
  have hcb : (s.fr i).cb = false := by rw [cb_top h htop, hc]; simp [noCb]
  unfold register
  by_cases hown : (s.fr i).cfg.own = true
  · rw [if_pos hown]
    have hri : ∀ j, reqOf { setFr s i { s.fr i with cb := true, reg := outer s i, req := reqOf s (outer s i) } with
        ctl := .run i, log := s.log ++ [.reg none], bad := s.bad || dead s (outer s i) || !(s.fr i).alive }
        (outer s j) = reqOf s (outer s j) ∨ outer s j = some i := by
      intro j
      cases ho : outer s j with
      | none => left; rfl
      | some q =>
        by_cases hq : q = i
        · right; rw [hq]
        · left; simp [reqOf, setFr, upd, hq]
    have hno : ∀ j ∈ i :: t, outer s j ≠ some i := by
      intro j hj ho
      have := outer_lt h hj ho
      simp at this
      exact not_mem_tail h.srt this
    refine inv_keep h rfl (by rw [htop]; rfl) ?_ ?_ ?_ ?_ ?_ ?_ ?_ ?_ ?_ ?_ ?_ ?_ ?_
    · intro j; simp only [setFr, upd]; split
      · rename_i he; subst he; simp [sameShape]
      · simp [sameShape]
    · intro j hj
      have : j ≠ i := by intro he; subst he; simp at hj
      simp [setFr, upd, this]
    · rw [hc]; simp [cancelling]
    · simp [h.bad, hol, hlv.1]
    · intro j hj
      rcases List.mem_cons.1 hj with he | hj'
      · subst he; simp [setFr, hown, noCb]
      · have hne := top_ne h hj'
        have := cb_tail h htop hj'
        simp [setFr, upd, hne, this, noCb]
    · intro j hj hcj
      by_cases he : j = i
      · subst he; simp [setFr]
      · simp only [setFr, upd, if_neg he] at hcj ⊢
        exact h.regs j hj hcj
    · intro j hj hh
      by_cases he : j = i
      · subst he; simp [setFr]; exact hfl
      · simp only [setFr, upd, if_neg he]
        exact h.flags j hj (fun hh => by rw [htop] at hh; cases hh; exact absurd rfl he)
    · intro j hj; simp at hj
    · intro r
      simp only [List.tail_cons, sem]
      rw [hse r]
      have hu : ∀ f o r, up (setFr s i f).fr t o r = up s.fr t o r := by
        intro f
        refine up_congr ?_
        intro j hj; simp [setFr, upd, top_ne h hj]
      simp only [hu]
      simp [setFr]
    · intro stk hs j hj
      have := h.stk stk hs j hj
      have hne : j ≠ i := by intro he; subst he; rw [hcb] at this; cases this.1
      simp [setFr, upd, hne, this]
    · exact h.same
    · intro j hj h1 h2
      rcases hri j with hr | hr
      · rw [hr]
        by_cases he : j = i
        · subst he; simpa [setFr] using h2
        · simp only [setFr, upd, if_neg he] at h1 h2
          exact h.req1 j hj h1 h2
      · exact absurd hr (hno j hj)
    · intro j hj h1 h2 h3
      rcases hri j with hr | hr
      · rw [hr] at h3
        by_cases he : j = i
        · subst he; simp [setFr] at h2; rw [h2] at h3; cases h3
        · simp only [setFr, upd, if_neg he] at h1 h2
          exact h.req2 j hj h1 h2 h3
      · exact absurd hr (hno j hj)
  · rw [if_neg hown]
    have hown' : (s.fr i).cfg.own = false := by simpa using hown
    refine inv_keep h rfl (by rw [htop]; rfl) ?_ ?_ ?_ ?_ ?_ ?_ ?_ ?_ ?_ ?_ ?_ ?_ ?_
    · intro j; simp [sameShape]
    · intro j hj; rfl
    · rw [hc]; simp [cancelling]
    · simp [h.bad, hlv.1]
    · intro j hj
      rcases List.mem_cons.1 hj with he | hj'
      · subst he; simp [hown', hcb]
      · have := cb_tail h htop hj'
        simp [this, noCb]
    · exact h.regs
    · intro j hj hh
      by_cases he : j = i
      · subst he; exact hfl
      · exact h.flags j hj (fun hh => by rw [htop] at hh; cases hh; exact absurd rfl he)
    · intro j hj; simp at hj
    · intro r
      simp only [List.tail_cons, sem]
      exact hse r
    · exact h.stk
    · exact h.same
    · exact h.req1
    · exact h.req2

/-- A step of the top coroutine that only changes fields of its own frame that are of no importance to
the stop machinery. -/
theorem inv_own {b0 : Body} {s : St} {i : Nat} {t : List Nat} {f : Fr} {c : Ctl} {x : Nat} {sm : Bool}
    {lg : List Ev} {b : Bool} (h : Inv b0 s (i :: t))
    (htop : top s.ctl = some i) (hct : top c = some i) (hsh : sameShape (s.fr i) f)
    (hcb : f.cb = (s.fr i).cb) (hrg : f.reg = (s.fr i).reg) (hrq : f.req = (s.fr i).req)
    (hca : cancelling s.ctl = true → cancelling c = true)
    (hb : b = false) (hnc : noCb c = noCb s.ctl)
    (hfl : going c = true → f.errors = none ∧ f.stopped = false)
    (hrs : c ≠ .resume i)
    (hse : ∀ r, denRoot b0 (lg ++ r) = sem (upd s.fr i f) c t r)
    (hsm : sm = true → s.inlineStop = true) :
    Inv b0 { setFr s i f with ctl := c, ctx := x, same := sm, log := lg, bad := b } (i :: t) := by
  have hreq : ∀ q, reqOf { setFr s i f with ctl := c, ctx := x, same := sm, log := lg, bad := b } q =
      reqOf s q := by
    intro q
    cases q with
    | none => rfl
    | some j =>
      simp only [reqOf, setFr, upd]; split
      · rename_i he; subst he; exact hrq
      · rfl
  have hfj : ∀ j, (upd s.fr i f j).cb = (s.fr j).cb ∧ (upd s.fr i f j).reg = (s.fr j).reg ∧
      (upd s.fr i f j).req = (s.fr j).req ∧ sameShape (s.fr j) (upd s.fr i f j) := by
    intro j; simp only [upd]; split
    · rename_i he; subst he; exact ⟨hcb, hrg, hrq, hsh⟩
    · simp [sameShape]
  refine inv_keep h rfl ?_ ?_ ?_ ?_ ?_ ?_ ?_ ?_ ?_ ?_ ?_ ?_ ?_ ?_
  · exact hct.trans htop.symm
  · intro j; exact (hfj j).2.2.2
  · intro j _; exact (hfj j).1
  · exact hca
  · exact hb
  · intro j hj
    have := h.cbs j hj
    simp only [setFr]
    rw [(hfj j).1, (hfj j).2.2.2.2.2.1, this, hct, htop, hnc]
  · intro j hj hcj
    simp only [setFr] at hcj ⊢
    rw [(hfj j).1] at hcj; rw [(hfj j).2.1]; exact h.regs j hj hcj
  · intro j hj hh
    simp only [setFr]
    by_cases he : j = i
    · subst he; simp only [upd_same]; exact hfl (hh hct)
    · simp only [upd, if_neg he]
      exact h.flags j hj (fun hh => by rw [htop] at hh; cases hh; exact absurd rfl he)
  · intro j hj
    simp only at hj
    exfalso; apply hrs
    rw [hj] at hct; simp [top] at hct; rw [hj, hct]
  · exact hse
  · intro stk hs j hj
    simp only [setFr]
    rw [(hfj j).1, (hfj j).2.2.1]
    exact h.stk stk hs j hj
  · exact hsm
  · intro j hj h1 h2
    rw [hreq]
    simp only [setFr] at h1 h2
    rw [(hfj j).1] at h1; rw [(hfj j).2.2.1] at h2
    exact h.req1 j hj h1 h2
  · intro j hj h1 h2 h3
    rw [hreq] at h3
    simp only [setFr] at h1 h2
    rw [(hfj j).1] at h1; rw [(hfj j).2.2.1] at h2
    exact h.req2 j hj h1 h2 h3

end Verif.Task
