import Verif.Task.Steps
namespace Verif.Task
set_option maxHeartbeats 4000000

/-- What the theorems assume: no sender resumes the coroutine inside its stop callback, or no task
translates stop tokens. -/
def Hyp (s : St) : Prop := s.inlineStop = false ∨ ∀ i, (s.fr i).cfg.own = false

theorem not_executing {b0 : Body} {s : St} {l : List Nat} (h : Inv b0 s l) (hy : Hyp s) {i : Nat} (hi : i ∈ l)
    (hb : blocked s i = false) : ∀ stk, s.stop = .act stk → i ∉ stk := by
  intro stk hs hm
  have h1 := h.stk stk hs i hm
  have h2 : (s.fr i).cfg.own = true := by
    have := h.cbs i hi; rw [h1.1] at this
    cases hx : (s.fr i).cfg.own <;> simp [hx] at this ⊢
  have h3 : s.same = false := by
    rcases hy with hy | hy
    · cases hx : s.same with
      | false => rfl
      | true => have := h.same hx; rw [hy] at this; cases this
    · rw [hy i] at h2; cases h2
  simp [blocked, executing, hs, h1.1, h3, hm] at hb

theorem inv_reset {b0 : Body} {s : St} {l : List Nat} {i : Nat} {c : Ctl} (h : Inv b0 s l) (hy : Hyp s)
    (htop : top s.ctl = some i) (hnb : blocked s i = false)
    (hc : (s.ctl = .cancel i ∧ c = .cancel2 i) ∨ (s.ctl = .done i ∧ (s.fr i).stopped = false ∧ c = .resume i)) :
    Inv b0 { reset s i with ctl := c } l := by
  obtain ⟨t, rfl⟩ := h.top_cons htop
  have hi : i ∈ i :: t := by simp
  have hlv := h.live i hi
  have hne := not_executing h hy hi hnb
  have hol : ((s.fr i).cb && dead s (s.fr i).reg) = false := by
    cases hx : (s.fr i).cb with
    | false => rfl
    | true => rw [h.regs i hi hx, outer_live h hi]; rfl
  have hct : top c = some i := by rcases hc with ⟨_, rfl⟩ | ⟨_, _, rfl⟩ <;> rfl
  have hnc : noCb c = true := by rcases hc with ⟨_, rfl⟩ | ⟨_, _, rfl⟩ <;> rfl
  have hgo : going c = false := by rcases hc with ⟨_, rfl⟩ | ⟨_, _, rfl⟩ <;> rfl
  have hreq : ∀ q, reqOf { reset s i with ctl := c } q = reqOf s q := by
    intro q
    cases q with
    | none => rfl
    | some j =>
      simp only [reqOf, reset, setFr, upd]; split
      · rename_i he; subst he; rfl
      · rfl
  refine inv_keep h rfl ?_ ?_ ?_ ?_ ?_ ?_ ?_ ?_ ?_ ?_ ?_ ?_ ?_ ?_
  · rw [htop]; exact hct
  · intro j; simp only [reset, setFr, upd]; split
    · rename_i he; subst he; simp [sameShape]
    · simp [sameShape]
  · intro j hj
    have : j ≠ i := by intro he; subst he; simp at hj
    simp [reset, setFr, upd, this]
  · rcases hc with ⟨_, rfl⟩ | ⟨h1, _, rfl⟩
    · intro _; rfl
    · rw [h1]; simp [cancelling]
  · simp [reset, h.bad, hlv.2.2.2, hol]
  · intro j hj
    rcases List.mem_cons.1 hj with he | hj'
    · subst he; simp [reset, setFr, hct, hnc]
    · have hne := top_ne h hj'
      have h2 := cb_tail h htop hj'
      have h3 : ¬ (some i = some j) := by simp; omega
      simp [reset, setFr, upd, hne, h2, hct, h3]
  · intro j hj hcj
    by_cases he : j = i
    · subst he; simp [reset, setFr] at hcj
    · simp only [reset, setFr, upd, if_neg he] at hcj ⊢
      exact h.regs j hj hcj
  · intro j hj hh
    by_cases he : j = i
    · subst he
      have := hh hct
      simp only [hgo] at this; cases this
    · simp only [reset, setFr, upd, if_neg he]
      exact h.flags j hj (fun hh => by rw [htop] at hh; cases hh; exact absurd rfl he)
  · intro j hj
    rcases hc with ⟨_, rfl⟩ | ⟨h1, h2, rfl⟩
    · simp at hj
    · simp only [Ctl.resume.injEq] at hj; subst hj
      simp [reset, setFr, h2]
  · intro r
    have h1 := h.sem r
    have hu : ∀ o r, up (reset s i).fr t o r = up s.fr t o r := by
      refine up_congr ?_
      intro j hj; simp [reset, setFr, upd, top_ne h hj]
    simp only [List.tail_cons] at h1 ⊢
    rcases hc with ⟨h2, rfl⟩ | ⟨h2, _, rfl⟩
    · rw [h2] at h1
      simp only [sem] at h1 ⊢
      rw [hu]; exact h1
    · rw [h2] at h1
      simp only [sem] at h1 ⊢
      rw [hu]
      have : recOf ((reset s i).fr i) = recOf (s.fr i) := by simp [reset, setFr, recOf]
      rw [this]; exact h1
  · intro stk hs j hj
    have he : j ≠ i := by intro he; subst he; exact hne stk hs hj
    simp only [reset, setFr, upd, if_neg he]
    exact h.stk stk hs j hj
  · exact h.same
  · intro j hj h1 h2
    rw [hreq]
    by_cases he : j = i
    · subst he; simp [reset, setFr] at h1
    · simp only [reset, setFr, upd, if_neg he] at h1 h2
      exact h.req1 j hj h1 h2
  · intro j hj h1 h2 h3
    rw [hreq] at h3
    by_cases he : j = i
    · subst he; simp [reset, setFr] at h1
    · simp only [reset, setFr, upd, if_neg he] at h1 h2
      exact h.req2 j hj h1 h2 h3

/-- `request_stop` begins. -/
theorem inv_stop {b0 : Body} {s : St} {l : List Nat} (h : Inv b0 s l) (hs : s.stop = .idle) :
    Inv b0 { s with stop := .act [] } l := by
  refine inv_keep h rfl rfl (fun j => by simp [sameShape]) (fun j _ => rfl) id h.bad h.cbs h.regs h.flags
    h.rst h.sem ?_ h.same ?_ ?_
  · intro stk he j hj
    simp only [Stop.act.injEq] at he; subst he; simp at hj
  · intro i hi h1 h2
    have h3 := h.req1 i hi h1 h2
    cases ho : outer s i with
    | none => simp [reqOf]
    | some j => rw [ho] at h3; exact h3
  · intro i hi h1 h2 h3
    refine ⟨[], rfl, ?_⟩
    intro j ho
    rw [ho] at h3
    have h4 : reqOf s (outer s i) = true := by rw [ho]; exact h3
    obtain ⟨stk, h5, _⟩ := h.req2 i hi h1 h2 h4
    rw [hs] at h5; cases h5

/-- Calling a task's callback. -/
theorem inv_enter {b0 : Body} {s : St} {l : List Nat} {i : Nat} {stk : List Nat} (h : Inv b0 s l)
    (hs : s.stop = .act stk) (hcb : (s.fr i).cb = true) (hreg : (s.fr i).reg = stk.head?) :
    Inv b0 { setFr s i { s.fr i with req := true } with
      stop := .act (i :: stk), bad := s.bad || !(s.fr i).alive || !(s.fr i).awAlive } l := by
  have hi : i ∈ l := by
    by_cases hn : i < s.n
    · by_cases hl : i ∈ l
      · exact hl
      · have := (h.gone i hn hl).2.2.2; rw [hcb] at this; cases this
    · have := (h.fresh i (by omega)).2.2.2.1; rw [hcb] at this; cases this
  have hlv := h.live i hi
  have hfj : ∀ j, ((upd s.fr i { s.fr i with req := true }) j).cb = (s.fr j).cb ∧
      ((upd s.fr i { s.fr i with req := true }) j).reg = (s.fr j).reg ∧
      ((upd s.fr i { s.fr i with req := true }) j).cfg = (s.fr j).cfg ∧
      ((upd s.fr i { s.fr i with req := true }) j).errors = (s.fr j).errors ∧
      ((upd s.fr i { s.fr i with req := true }) j).stopped = (s.fr j).stopped ∧
      ((upd s.fr i { s.fr i with req := true }) j).k = (s.fr j).k ∧
      ((upd s.fr i { s.fr i with req := true }) j).body = (s.fr j).body ∧
      recOf ((upd s.fr i { s.fr i with req := true }) j) = recOf (s.fr j) ∧
      sameShape (s.fr j) ((upd s.fr i { s.fr i with req := true }) j) := by
    intro j; simp only [upd]; split
    · rename_i he; subst he; simp [sameShape, recOf]
    · simp [sameShape]
  refine inv_keep h rfl rfl ?_ ?_ id ?_ ?_ ?_ ?_ ?_ ?_ ?_ h.same ?_ ?_
  · intro j; exact (hfj j).2.2.2.2.2.2.2.2
  · intro j _; exact (hfj j).1
  · simp [h.bad, hlv.1, hlv.2.2.2]
  · intro j hj; simp only [setFr]; rw [(hfj j).1, (hfj j).2.2.1]; exact h.cbs j hj
  · intro j hj hc; simp only [setFr] at hc ⊢; rw [(hfj j).1] at hc; rw [(hfj j).2.1]; exact h.regs j hj hc
  · intro j hj hh; simp only [setFr]; rw [(hfj j).2.2.2.1, (hfj j).2.2.2.2.1]; exact h.flags j hj hh
  · intro j hj; simp only [setFr]; rw [(hfj j).2.2.2.2.1]; exact h.rst j hj
  · intro r
    refine (h.sem r).trans (Eq.symm ?_)
    refine sem_congr ?_ ?_ r
    · intro j _; exact (hfj j).2.2.2.2.2.1
    · intro j _; exact ⟨(hfj j).2.2.2.2.2.2.1, (hfj j).2.2.2.2.2.1, (hfj j).2.2.2.2.2.2.2.1⟩
  · intro stk' he j hj
    simp only [Stop.act.injEq] at he; subst he
    simp only [setFr]
    rw [(hfj j).1]
    rcases List.mem_cons.1 hj with hj | hj
    · subst hj; exact ⟨hcb, by simp⟩
    · have := h.stk stk hs j hj
      refine ⟨this.1, ?_⟩
      simp only [upd]; split
      · rfl
      · exact this.2
  · intro j hj h1 h2
    simp only [setFr] at h1
    rw [(hfj j).1] at h1
    have key : (∃ q, outer s j = some q ∧ q = i) ∨ reqOf s (outer s j) = true → reqOf
        { setFr s i { s.fr i with req := true } with
          stop := .act (i :: stk), bad := s.bad || !(s.fr i).alive || !(s.fr i).awAlive } (outer s j) = true := by
      intro hk
      cases ho : outer s j with
      | none => simp [reqOf]
      | some q =>
        simp only [reqOf, setFr, upd]; split
        · rfl
        · rename_i hq
          rcases hk with ⟨q', h3, h4⟩ | hk
          · rw [ho] at h3; cases h3; exact absurd h4 hq
          · rw [ho] at hk; exact hk
    apply key
    by_cases he : j = i
    · subst he
      cases ho : outer s j with
      | none => right; simp [reqOf, hs]
      | some q =>
        right
        have h6 := h.regs j hj hcb
        rw [hreg, ho] at h6
        exact (h.stk stk hs q (List.mem_of_mem_head? h6)).2
    · right
      simp only [setFr, upd, if_neg he] at h2
      exact h.req1 j hj h1 h2
  · intro j hj h1 h2 h3
    refine ⟨i :: stk, rfl, ?_⟩
    intro q ho
    have he : j ≠ i := by intro he; subst he; simp [setFr] at h2
    simp only [setFr, upd, if_neg he] at h1 h2
    by_cases hq : q = i
    · subst hq; simp
    · have h4 : reqOf s (outer s j) = true := by
        rw [ho] at h3 ⊢
        simpa [reqOf, setFr, upd, hq] using h3
      obtain ⟨stk', h5, h6⟩ := h.req2 j hj h1 h2 h4
      rw [hs] at h5; cases h5
      exact List.mem_cons_of_mem _ (h6 q ho)

/-- The innermost `request_stop` returns. -/
theorem inv_ret {b0 : Body} {s : St} {l : List Nat} {stk : List Nat} (h : Inv b0 s l)
    (hs : s.stop = .act stk)
    (hg : ∀ i, i < s.n → ¬ ((s.fr i).cb = true ∧ (s.fr i).req = false ∧ (s.fr i).reg = stk.head?)) :
    Inv b0 { s with
      stop := pop stk
      bad := s.bad || dead s stk.head? } l := by
  have hd : dead s stk.head? = false := by
    cases stk with
    | nil => rfl
    | cons j t =>
      have hcb := (h.stk _ hs j (by simp)).1
      have hi : j ∈ l := by
        by_cases hn : j < s.n
        · by_cases hl : j ∈ l
          · exact hl
          · have := (h.gone j hn hl).2.2.2; rw [hcb] at this; cases this
        · have := (h.fresh j (by omega)).2.2.2.1; rw [hcb] at this; cases this
      simp [dead, (h.live j hi).1]
  refine inv_keep h rfl rfl (fun j => by simp [sameShape]) (fun j _ => rfl) id ?_ h.cbs h.regs h.flags
    h.rst h.sem ?_ h.same ?_ ?_
  · simp [h.bad, hd]
  · intro stk' he j hj
    cases stk with
    | nil => simp [pop] at he
    | cons a t =>
      simp only [pop, Stop.act.injEq] at he; subst he
      exact h.stk _ hs j (by simp [hj])
  · intro i hi h1 h2
    have h3 := h.req1 i hi h1 h2
    cases ho : outer s i with
    | none => simp only [reqOf]; cases stk <;> simp [pop]
    | some j => rw [ho] at h3; exact h3
  · intro i hi h1 h2 h3
    have h4 := hg i (h.lt i hi)
    have h5 := h.regs i hi h1
    have h6 : outer s i ≠ stk.head? := fun he => h4 ⟨h1, h2, by rw [h5, he]⟩
    have h7 : reqOf s (outer s i) = true := by
      cases ho : outer s i with
      | none => simp [reqOf, hs]
      | some j => rw [ho] at h3; exact h3
    obtain ⟨stk', h8, h9⟩ := h.req2 i hi h1 h2 h7
    rw [hs] at h8; cases h8
    cases stk with
    | nil =>
      exfalso
      cases ho : outer s i with
      | none => rw [ho] at h6; simp at h6
      | some j => have := h9 j ho; simp at this
    | cons a t =>
      refine ⟨t, rfl, ?_⟩
      intro j ho
      have := h9 j ho
      rcases List.mem_cons.1 this with he | he
      · subst he; exfalso; apply h6; rw [ho]; rfl
      · exact he

end Verif.Task
