import Verif.Mpsc.Inv
/-! # `__intrusive_mpsc_queue`: property C12

Any number of producers, every interleaving of individual memory accesses, nodes reused arbitrarily. -/
namespace Verif.Mpsc

/-- **C12**, FIFO, no loss, no duplication: the nodes in the order in which their pushes took effect are the
nodes popped so far, in order, followed by the nodes still queued, whose links lead from the tail to the head. -/
theorem C12_fifo (s : St) (h : Reachable s) :
    ∃ queued, s.effect = s.got ++ queued ∧ queued = s.seq.filter (· ≠ 0) ∧ queued.Nodup :=
  ⟨_, (inv_reach h).eff, rfl, (inv_reach h).nodup.filter _⟩

/-- `pop_front` returned `n`: it was the oldest node not yet popped. -/
theorem C12_pop_oldest (s s' : St) (a : Act) (n : Nat) (h : Reachable s) (hs : step s a = some s')
    (hg : s'.got = s.got ++ [n]) : ∃ rest, s.effect = s.got ++ n :: rest := by
  have h' := inv_reach (.tail a h hs)
  have he : s'.effect = s.effect ∨ s'.got = s.got := by
    cases a <;> simp only [step] at hs
    · split at hs <;> cases hs; simp
    · split at hs <;> cases hs <;> simp
    · split at hs <;> cases hs; simp
    · (repeat' split at hs) <;> cases hs <;> simp [St.take, St.null]
  rcases he with he | he
  · refine ⟨s'.seq.filter (· ≠ 0), ?_⟩
    rw [← he, h'.eff, hg]; simp
  · rw [he] at hg; have := congrArg List.length hg; simp at this

/-- **C12**: when no push is between its exchange and its link store, `pop_front` run by itself returns the
oldest node, and returns null only if the queue is empty. -/
theorem C12_pop_complete (s : St) (h : Reachable s) (hc : s.cons = .idle) (hp : ∀ t n p, s.prod t ≠ .link n p) :
    ∃ k s', exec step s (.pop :: List.replicate k .cons) = some s' ∧ s'.cons = .idle ∧
      ((s.effect = s.got ∧ s'.got = s.got ∧ s'.log = s.log ++ [.popCall, .popRet none]) ∨
       (∃ n rest, s.effect = s.got ++ n :: rest ∧ s'.got = s.got ++ [n] ∧
          s'.log = s.log ++ [.popCall, .popRet (some n)])) := by
  have hi := inv_reach h
  have hl : ∀ n ∈ s.seq, s.next n = s.succ n := by
    intro n hn
    rcases hi.link n hn with h1 | ⟨_, ⟨t, m, h2, _⟩ | ⟨h2, _⟩⟩
    · exact h1
    · exact absurd h2 (hp t m n)
    · rw [hc] at h2; cases h2
  have heff := hi.eff
  have hch := hi.chain
  have hla := hi.last
  have hnd := hi.nodup
  obtain ⟨l, hq⟩ := hi.cons_seq
  rw [hq] at heff hch hla hl hnd
  have hn1 := hl s.tail (by simp)
  by_cases ht : s.tail = 0
  · rw [ht] at heff hch hla hl hnd hn1
    cases l with
    | nil =>
        have : s.next 0 = none := by rw [hn1]; exact hch.2
        exact ⟨1, { s with cons := .idle, log := s.log ++ [.popCall, .popRet none] },
          by simp [exec, step, hc, ht, this, St.null], rfl, .inl ⟨by simpa using heff, rfl, by simp⟩⟩
    | cons a l =>
        have ha : s.next 0 = some a := by rw [hn1]; exact hch.2.1
        have ha0 : a ≠ 0 := by rintro rfl; simp at hnd
        have hn2 := hl a (by simp)
        cases l with
        | cons b l =>
            have hb : s.next a = some b := by rw [hn2]; exact hch.2.2.1
            refine ⟨2, _, by simp [exec, step, hc, ht, ha, hb, St.take]; rfl, rfl, .inr ⟨a, b :: l, ?_, rfl, by simp⟩⟩
            rw [heff]
            have : b ≠ 0 ∧ ∀ x ∈ l, x ≠ 0 := by
              simp only [List.nodup_cons, List.mem_cons, not_or] at hnd
              exact ⟨fun e => hnd.1.2.1 e.symm, fun x hx e => hnd.1.2.2 (e ▸ hx)⟩
            simp [ha0, this.1]; exact this.2
        | nil =>
            have hb : s.next a = none := by rw [hn2]; exact hch.2.2
            have hh : s.head = a := by simpa using hla.symm
            refine ⟨7, _, by simp [exec, step, hc, ht, ha, hb, hh, ha0, upd_apply, St.take]; rfl, rfl, .inr ⟨a, [], ?_, rfl, by simp⟩⟩
            rw [heff]; simp [List.filter_cons, ha0]
  · cases l with
    | cons b l =>
        have hb : s.next s.tail = some b := by rw [hn1]; exact hch.2.1
        exact ⟨1, _, by simp [exec, step, hc, ht, hb, St.take]; rfl, rfl,
          .inr ⟨s.tail, (b :: l).filter (· ≠ 0), by rw [heff]; simp [List.filter_cons, ht], rfl, by simp⟩⟩
    | nil =>
        have hb : s.next s.tail = none := by rw [hn1]; exact hch.2
        have hh : s.head = s.tail := by simpa using hla.symm
        refine ⟨6, _, by simp [exec, step, hc, ht, hb, hh, upd_apply, St.take]; rfl, rfl, .inr ⟨s.tail, [], ?_, rfl, by simp⟩⟩
        rw [heff]; simp [List.filter_cons, ht]

/-- **C12**: a push that takes effect on an empty queue while the consumer is outside `pop_front` will report
"was empty" (`prev` is the stub) … -/
theorem C12_push_on_empty (s s' : St) (t n : Nat) (h : Reachable s) (hc : s.cons = .idle) (hp : s.prod t = .exch n)
    (he : s.effect = s.got) (hs : step s (.prod t) = some s') : s'.prod t = .link n 0 := by
  have hi := inv_reach h
  have hf : s.seq.filter (· ≠ 0) = [] := by
    have := hi.eff; rw [he] at this; simpa using this
  have hh : s.head = 0 := by
    have := List.filter_eq_nil_iff.1 hf s.head hi.head_mem
    simpa using this
  simp [step, hp, hh] at hs; subst hs; simp

/-- … and a push that reports "was not empty" did find an unpopped node. -/
theorem C12_push_false_nonempty (s s' : St) (t n p : Nat) (h : Reachable s) (hp : s.prod t = .exch n)
    (hs : step s (.prod t) = some s') (hl : s'.prod t = .link n p) (hne : p ≠ 0) : s.effect ≠ s.got := by
  have hi := inv_reach h
  have hh : s.head = p := by simp [step, hp] at hs; subst hs; simpa using hl
  intro he
  have hf : s.seq.filter (· ≠ 0) = [] := by
    have := hi.eff; rw [he] at this; simpa using this
  have := List.filter_eq_nil_iff.1 hf p (hh ▸ hi.head_mem)
  simp [hne] at this

/-- Two producers, the second links first; the consumer gets them in exchange order. -/
example : ∃ s, Reachable s ∧ (s.got == [5, 6] && s.cons == .idle) = true :=
  Reach.witness [.push 0 5, .push 1 6, .prod 0, .prod 1, .prod 1, .pop, .cons, .prod 0, .pop, .cons, .cons, .prod 0, .prod 1,
    .pop, .cons, .cons, .cons, .cons, .cons, .cons] _ (by decide)

/-- **C12** is false as a wake-up protocol: there is an execution in which `pop_front` returns null although
node 5 had been pushed completely before the call, all pushes have since returned, the only push that
returned after the call began (node 6) reported "was not empty" — so a consumer that sleeps after null is not
woken — and both nodes are still queued. -/
theorem C12_wakeup_false : ∃ s, Reachable s ∧
    (s.log == [.pushRet 5 true, .popCall, .popRet none, .pushRet 6 false] && s.cons == .idle &&
      s.prod 0 == .idle && s.prod 1 == .idle && s.effect == [5, 6] && s.got == []) = true :=
  Reach.witness [.push 0 5, .prod 0, .prod 0, .prod 0, .push 1 6, .prod 1, .pop, .cons, .cons, .cons, .prod 1, .prod 1] _
    (by decide)

end Verif.Mpsc
