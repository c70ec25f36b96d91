import Verif.Task.Steps2
namespace Verif.Task
set_option maxHeartbeats 4000000

/-- The top task ends. -/
theorem inv_pop {b0 : Body} {s s' : St} {i : Nat} {t : List Nat} (h : Inv b0 s (i :: t))
    (htop : top s.ctl = some i) (hcb : (s.fr i).cb = false) (hn : s'.n = s.n) (hbad : s'.bad = false)
    (hst : s'.stop = s.stop) (hct : top s'.ctl = t.head?)
    (hctl : noCb s'.ctl = false) (hrs : ∀ j, s'.ctl ≠ .resume j)
    (hsame : s'.same = true → s'.inlineStop = true)
    (hsh : ∀ j, j ≠ i → (s'.fr j).cfg = (s.fr j).cfg ∧ (s'.fr j).parent = (s.fr j).parent ∧
      (s'.fr j).tok = (s.fr j).tok ∧ (s'.fr j).alive = (s.fr j).alive ∧
      (s'.fr j).destroyed = (s.fr j).destroyed ∧ (s'.fr j).owns = (s.fr j).owns ∧
      (s'.fr j).cb = (s.fr j).cb ∧ (s'.fr j).reg = (s.fr j).reg ∧ (s'.fr j).req = (s.fr j).req ∧
      (s'.fr j).errors = (s.fr j).errors ∧ (s'.fr j).stopped = (s.fr j).stopped ∧
      ((s'.fr j).awAlive = true → (s.fr j).awAlive = true))
    (hi : (s'.fr i).alive = false ∧ (s'.fr i).destroyed = 1 ∧ (s'.fr i).owns = false ∧
      (s'.fr i).cb = false)
    (hch : ∀ j ∈ t.tail, (s'.fr j).child = (s.fr j).child)
    (haw : ∀ j ∈ t, (s'.fr j).awAlive = true)
    (haws : ∀ j, (s'.fr j).awAlive = true → j ∉ t → ∃ p, top s'.ctl = some p ∧ (s'.fr p).child = some j)
    (hchild : ∀ p c, top s'.ctl = some p → (s'.fr p).child = some c →
      cancelling s'.ctl = true ∧ c ∉ t ∧ c < s.n ∧ (s'.fr c).awAlive = true)
    (hsem : ∀ r, denRoot b0 (s'.log ++ r) = sem s'.fr s'.ctl t.tail r) : Inv b0 s' t := by
  have hni := not_mem_tail h.srt
  have hjt : ∀ j ∈ t, j ≠ i := fun j hj => top_ne h hj
  have hlt : i < s.n := h.lt i (by simp)
  have ho : ∀ j ∈ t, outer s' j = outer s j := by
    intro j hj
    unfold outer
    rw [(hsh j (hjt j hj)).2.1]
    split
    · rename_i p hp
      have := Link_parent_mem (Link_tail h.link) j hj p hp
      exact (hsh p (hjt p (List.mem_of_mem_tail this))).2.2.1
    · rfl
  have hrq : ∀ j ∈ t, reqOf s' (outer s j) = reqOf s (outer s j) := by
    intro j hj
    cases hq : outer s j with
    | none => simp [reqOf, hst]
    | some q =>
      have hq' := outer_lt h (List.mem_cons_of_mem i hj) hq
      simp only [List.tail_cons] at hq'
      exact (hsh q (hjt q hq')).2.2.2.2.2.2.2.2.1
  constructor
  · exact hbad
  · exact hct.symm
  · exact (List.pairwise_cons.1 h.srt).2
  · intro j hj; rw [hn]; exact h.lt j (by simp [hj])
  · intro j hj
    have h1 := hsh j (hjt j hj)
    have h2 := h.live j (by simp [hj])
    rw [h1.2.2.2.1, h1.2.2.2.2.1, h1.2.2.2.2.2.1]
    exact ⟨h2.1, h2.2.1, h2.2.2.1, haw j hj⟩
  · intro j hj hl
    by_cases he : j = i
    · subst he; exact hi
    · have h1 := hsh j he
      rw [h1.2.2.2.1, h1.2.2.2.2.1, h1.2.2.2.2.2.1, h1.2.2.2.2.2.2.1]
      exact h.gone j (hn ▸ hj) (by simp [he, hl])
  · intro j hj
    have he : j ≠ i := by intro he; subst he; omega
    have h1 := hsh j he
    have h2 := h.fresh j (hn ▸ hj)
    rw [h1.2.2.2.1, h1.2.2.2.2.1, h1.2.2.2.2.2.1, h1.2.2.2.2.2.2.1]
    refine ⟨h2.1, h2.2.1, h2.2.2.1, h2.2.2.2.1, ?_⟩
    cases hx : (s'.fr j).awAlive with
    | false => rfl
    | true => have := h1.2.2.2.2.2.2.2.2.2.2.2 hx; rw [h2.2.2.2.2] at this; cases this
  · exact haws
  · refine Link_congr (fr := s.fr) ?_ hch (Link_tail h.link)
    intro j hj
    have h1 := hsh j (hjt j hj)
    exact ⟨h1.2.1, h1.2.2.1, h1.1⟩
  · intro p c h1 h2
    have := hchild p c h1 h2
    rw [hn]; exact this
  · intro j hj
    have h1 := hsh j (hjt j hj)
    rw [h1.2.2.2.2.2.2.1, h1.1, cb_tail h htop hj, hctl]; simp
  · intro j hj hc
    have h1 := hsh j (hjt j hj)
    rw [h1.2.2.2.2.2.2.1] at hc
    rw [h1.2.2.2.2.2.2.2.1, ho j hj]
    exact h.regs j (by simp [hj]) hc
  · intro j hj _
    have h1 := hsh j (hjt j hj)
    rw [h1.2.2.2.2.2.2.2.2.2.1, h1.2.2.2.2.2.2.2.2.2.2.1]
    refine h.flags j (by simp [hj]) ?_
    intro hh; rw [htop] at hh; cases hh; exact absurd rfl (hjt _ hj)
  · intro j hj; exact absurd hj (hrs j)
  · exact hsem
  · intro stk hs j hj
    rw [hst] at hs
    have h2 := h.stk stk hs j hj
    have he : j ≠ i := by intro he; subst he; rw [hcb] at h2; cases h2.1
    have h1 := hsh j he
    rw [h1.2.2.2.2.2.2.1, h1.2.2.2.2.2.2.2.2.1]; exact h2
  · exact hsame
  · intro j hj hc hr
    have h1 := hsh j (hjt j hj)
    rw [h1.2.2.2.2.2.2.1] at hc
    rw [h1.2.2.2.2.2.2.2.2.1] at hr
    rw [ho j hj, hrq j hj]
    exact h.req1 j (by simp [hj]) hc hr
  · intro j hj hc hr h3
    have h1 := hsh j (hjt j hj)
    rw [h1.2.2.2.2.2.2.1] at hc
    rw [h1.2.2.2.2.2.2.2.2.1] at hr
    rw [ho j hj, hrq j hj] at h3
    rw [hst, ho j hj]
    exact h.req2 j (by simp [hj]) hc hr h3

end Verif.Task
