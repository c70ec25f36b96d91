import Verif.Task.Inv
namespace Verif.Task
set_option maxHeartbeats 4000000

/-- The parts of a frame that only change when a task is created or ends. -/
def sameShape (f f' : Fr) : Prop :=
  f'.parent = f.parent ∧ f'.tok = f.tok ∧ f'.cfg = f.cfg ∧ f'.alive = f.alive ∧
  f'.destroyed = f.destroyed ∧ f'.owns = f.owns ∧ f'.awAlive = f.awAlive ∧ f'.child = f.child

theorem outer_congr {s s' : St} (hsh : ∀ j, sameShape (s.fr j) (s'.fr j)) (i : Nat) :
    outer s' i = outer s i := by
  unfold outer
  rw [(hsh i).1]
  split
  · rename_i p _; exact (hsh p).2.1
  · rfl

/-- A step that neither creates nor ends a task. -/
theorem inv_keep {b0 : Body} {s s' : St} {l : List Nat} (h : Inv b0 s l) (hn : s'.n = s.n)
    (ht : top s'.ctl = top s.ctl) (hsh : ∀ j, sameShape (s.fr j) (s'.fr j))
    (hcb : ∀ j, j ∉ l → (s'.fr j).cb = (s.fr j).cb)
    (hca : cancelling s.ctl = true → cancelling s'.ctl = true)
    (hbad : s'.bad = false)
    (cbs : ∀ i ∈ l, (s'.fr i).cb =
      ((s'.fr i).cfg.own && !(decide (top s'.ctl = some i) && noCb s'.ctl)))
    (regs : ∀ i ∈ l, (s'.fr i).cb = true → (s'.fr i).reg = outer s i)
    (flags : ∀ i ∈ l, (top s'.ctl = some i → going s'.ctl = true) →
      (s'.fr i).errors = none ∧ (s'.fr i).stopped = false)
    (rst : ∀ i, s'.ctl = .resume i → (s'.fr i).stopped = false)
    (hsem : ∀ r, denRoot b0 (s'.log ++ r) = Task.sem s'.fr s'.ctl l.tail r)
    (stk : ∀ stk, s'.stop = .act stk → ∀ j ∈ stk, (s'.fr j).cb = true ∧ (s'.fr j).req = true)
    (same : s'.same = true → s'.inlineStop = true)
    (req1 : ∀ i ∈ l, (s'.fr i).cb = true → (s'.fr i).req = true → reqOf s' (outer s i) = true)
    (req2 : ∀ i ∈ l, (s'.fr i).cb = true → (s'.fr i).req = false → reqOf s' (outer s i) = true →
      ∃ stk, s'.stop = .act stk ∧ ∀ j, outer s i = some j → j ∈ stk) : Inv b0 s' l := by
  have ho := outer_congr hsh
  constructor
  · exact hbad
  · rw [ht]; exact h.hd
  · exact h.srt
  · intro i hi; rw [hn]; exact h.lt i hi
  · intro i hi
    obtain ⟨_, _, _, h4, h5, h6, h7, _⟩ := hsh i
    rw [h4, h5, h6, h7]; exact h.live i hi
  · intro i hi hl
    obtain ⟨_, _, _, h4, h5, h6, h7, _⟩ := hsh i
    rw [h4, h5, h6, hcb i hl]; exact h.gone i (hn ▸ hi) hl
  · intro i hi
    have hl : i ∉ l := fun hl => by have := h.lt i hl; omega
    obtain ⟨_, _, _, h4, h5, h6, h7, _⟩ := hsh i
    rw [h4, h5, h6, h7, hcb i hl]; exact h.fresh i (hn ▸ hi)
  · intro i hi hl
    rw [(hsh i).2.2.2.2.2.2.1] at hi
    obtain ⟨p, h1, h2⟩ := h.aws i hi hl
    exact ⟨p, by rw [ht]; exact h1, by rw [(hsh p).2.2.2.2.2.2.2]; exact h2⟩
  · exact Link_congr (fun j _ => ⟨(hsh j).1, (hsh j).2.1, (hsh j).2.2.1⟩)
      (fun j _ => (hsh j).2.2.2.2.2.2.2) h.link
  · intro p c h1 h2
    rw [ht] at h1
    rw [(hsh p).2.2.2.2.2.2.2] at h2
    have := h.child p c h1 h2
    rw [hn, (hsh c).2.2.2.2.2.2.1]
    exact ⟨hca this.1, this.2⟩
  · exact cbs
  · intro i hi hc; rw [ho]; exact regs i hi hc
  · exact flags
  · exact rst
  · exact hsem
  · exact stk
  · exact same
  · intro i hi; rw [ho]; exact req1 i hi
  · intro i hi; rw [ho]; exact req2 i hi

/-- The top of the chain. -/
theorem Inv.top_cons {b0 : Body} {s : St} {l : List Nat} (h : Inv b0 s l) {i : Nat} (ht : top s.ctl = some i) :
    ∃ t, l = i :: t := by
  have := h.hd
  rw [ht] at this
  cases l with
  | nil => simp at this
  | cons a t => simp at this; exact ⟨t, by rw [this]⟩

theorem outer_live {b0 : Body} {s : St} {l : List Nat} (h : Inv b0 s l) {i : Nat} (hi : i ∈ l) :
    dead s (outer s i) = false := by
  unfold outer
  split
  · rename_i p hp
    have hm := Link_parent_mem h.link i hi p hp
    have hm' : p ∈ l := List.mem_of_mem_tail hm
    cases ht : (s.fr p).tok with
    | none => rfl
    | some j => simp [dead, (h.live j (Link_tok h.link p hm' j ht)).1]
  · rfl

theorem outer_lt {b0 : Body} {s : St} {l : List Nat} (h : Inv b0 s l) {i j : Nat} (hi : i ∈ l)
    (ho : outer s i = some j) : j ∈ l.tail := by
  unfold outer at ho
  split at ho
  · rename_i p hp
    have hm := Link_parent_mem h.link i hi p hp
    cases l with
    | nil => simp at hi
    | cons a t =>
      simp at hm ⊢
      exact Link_tok (Link_tail h.link) p hm j ho
  · cases ho

/-- Changing only the control. -/
theorem reqOf_congr {s s' : St} (hs : s'.stop = s.stop ∨ (s'.stop ≠ .idle ∧ s.stop ≠ .idle))
    (hr : ∀ j, (s'.fr j).req = (s.fr j).req)
    (t : Option Nat) : reqOf s' t = reqOf s t := by
  cases t with
  | none => simp [reqOf]; rcases hs with hs | hs <;> simp [hs]
  | some j => exact hr j

end Verif.Task
