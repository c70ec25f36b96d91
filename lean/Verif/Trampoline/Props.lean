import Verif.Trampoline.Model
import Mathlib.Data.List.Nodup
/-!
# C42 — the trampoline scheduler bounds recursion and runs everything

Specification: every operation started completes exactly once (`log`), and has done so when the outermost `start`
returns (`active = false`); at most `max 1 d` completions are nested on the call stack, `d` being the limit of the
origin's scheduler; the deferred operations run in the order in which they were deferred; an operation completes with
stopped exactly if stop was requested on its token when it ran.
-/
namespace Verif.Trampoline

/-- The operations completed, in order. -/
def ran (s : St) : List Nat := s.log.map (·.1)

/-- `next` links the list. -/
def Chain (next : Nat → Option Nat) : List Nat → Prop
  | [] => True
  | [x] => next x = none
  | x :: y :: l => next x = some y ∧ Chain next (y :: l)

theorem chain_congr {f g : Nat → Option Nat} : ∀ {l : List Nat}, (∀ x ∈ l, f x = g x) → Chain f l → Chain g l
  | [], _, _ => trivial
  | [x], h, hc => by simp only [Chain] at *; rw [← h x (by simp)]; exact hc
  | x :: y :: l, h, hc => by
    simp only [Chain] at *
    exact ⟨by rw [← h x (by simp)]; exact hc.1, chain_congr (fun z hz => h z (by simp [hz])) hc.2⟩

theorem chain_snoc {f : Nat → Option Nat} {p i : Nat} : ∀ {l : List Nat}, Chain f l → l.getLast? = some p → l.Nodup →
    i ∉ l → f i = none → Chain (upd f p (some i)) (l ++ [i])
  | [], _, h, _, _, _ => by simp at h
  | [x], hc, h, _, hi, hf => by
    simp at h; subst h
    have : i ≠ x := by simpa using hi
    simp [Chain, upd_other _ _ this, hf]
  | x :: y :: l, hc, h, hn, hi, hf => by
    have hl : (y :: l).getLast? = some p := by simpa using h
    have hne : x ≠ p := by
      rintro rfl
      have := List.mem_of_mem_getLast? (l := y :: l) (a := x) (by simp [hl])
      simp only [List.nodup_cons] at hn
      exact hn.1 this
    refine ⟨?_, chain_snoc hc.2 hl (List.nodup_cons.1 hn).2 (fun hm => hi (List.mem_cons_of_mem _ hm)) hf⟩
    rw [upd_other _ _ hne]; exact hc.1

structure Inv (s : St) : Prop where
  nd : s.started.Nodup
  all : List.Perm (ran s ++ s.queue) s.started
  hd : s.head = s.queue.head?
  tl : s.tail = s.queue.getLast?
  ch : Chain s.next s.queue
  nx : ∀ i, i ∉ s.queue → s.next i = none
  idle : s.active = false → s.queue = [] ∧ s.stack = []
  dep : s.active = true → s.stack.length ≤ s.depth ∧ s.depth ≤ max 1 s.maxDepth
  sub : ∀ i ∈ s.deferred, i ∈ s.started
  fifo : (ran s).filter (fun i => decide (i ∈ s.deferred)) ++ s.queue = s.deferred

theorem inv_init : Inv init := by
  constructor <;> simp [init, ran, Chain]

theorem fresh_ran {s : St} (h : Inv s) {i : Nat} (hi : i ∉ s.started) : i ∉ ran s ∧ i ∉ s.queue :=
  ⟨fun hm => hi (h.all.subset (by simp [hm])), fun hm => hi (h.all.subset (by simp [hm]))⟩

theorem queue_nodup {s : St} (h : Inv s) : s.queue.Nodup := by
  have := h.all.nodup_iff.2 h.nd
  exact (List.nodup_append.1 this).2.1

theorem filter_fresh {l d : List Nat} {i : Nat} (hi : i ∉ l) :
    l.filter (fun x => decide (x ∈ d ++ [i])) = l.filter (fun x => decide (x ∈ d)) := by
  apply List.filter_congr
  intro x hx
  have : x ≠ i := fun e => hi (e ▸ hx)
  simp [this]

theorem inv_step {mx : Nat → Nat} {s s' : St} (a : Act) (h : Inv s) (hs : step mx s a = some s') : Inv s' := by
  cases a with
  | start i big =>
    simp only [step] at hs
    split at hs
    · cases hs
    rename_i hi
    have ⟨hr, hq⟩ := fresh_ran h hi
    have hnd : (s.started ++ [i]).Nodup := by
      rw [List.nodup_append]; exact ⟨h.nd, by simp, by intro a ha b hb e; simp at hb; subst hb; subst e; exact hi ha⟩
    split at hs
    · -- origin frame
      rename_i hact
      cases hs
      obtain ⟨q0, k0⟩ := h.idle hact
      refine ⟨hnd, ?_, ?_, ?_, h.ch, h.nx, by simp [execute], ?_, ?_, ?_⟩
      · have := h.all
        simp only [q0, List.append_nil] at this
        simp only [execute, ran, List.map_append, List.map_cons, List.map_nil, q0, List.append_nil]
        exact this.append_right _
      · simp [execute, q0]
      · simp [execute, q0]
      · intro _; simp only [execute, k0]; simp; omega
      · intro j hj; simp [execute]; exact Or.inl (h.sub j hj)
      · have hf := h.fifo
        have hid : i ∉ s.deferred := fun hm => hi (h.sub i hm)
        simp only [execute, ran, List.map_append, List.map_cons, List.map_nil, List.filter_append, q0, List.append_nil] at hf ⊢
        simp only [hid, decide_false, List.filter_cons, List.filter_nil]
        simpa using hf
    split at hs
    · cases hs
    rename_i hna hst
    have hact : s.active = true := by simpa using hna
    split at hs
    · -- inline
      rename_i hc
      cases hs
      refine ⟨hnd, ?_, h.hd, h.tl, h.ch, h.nx, by simp [execute, hact], ?_, ?_, ?_⟩
      · simp only [execute, ran, List.map_append, List.map_cons, List.map_nil]
        have h1 : List.Perm (List.map (·.1) s.log ++ [i] ++ s.queue) (List.map (·.1) s.log ++ s.queue ++ [i]) := by
          rw [List.append_assoc, List.append_assoc]
          exact (List.perm_append_comm).append_left _
        exact h1.trans (h.all.append_right _)
      · intro _; have := h.dep hact; simp only [execute, List.length_cons]; omega
      · intro j hj; simp [execute]; exact Or.inl (h.sub j hj)
      · have hf := h.fifo
        have hid : i ∉ s.deferred := fun hm => hi (h.sub i hm)
        simp only [execute, ran, List.map_append, List.map_cons, List.map_nil, List.filter_append] at hf ⊢
        simp only [hid, decide_false, List.filter_cons, List.filter_nil]
        simp only [Bool.false_eq_true, if_false, List.append_nil]; exact hf
    · -- deferred
      cases hs
      have e1 : ∀ t : St, ran { push s i with started := t.started, deferred := t.deferred, queue := t.queue } = ran s := by
        intro t; simp only [ran, push]; split <;> rfl
      have e2 : (push s i).active = s.active := by simp only [push]; split <;> rfl
      have e3 : (push s i).stack = s.stack := by simp only [push]; split <;> rfl
      have e4 : (push s i).depth = s.depth ∧ (push s i).maxDepth = s.maxDepth := by simp only [push]; split <;> exact ⟨rfl, rfl⟩
      have e5 : (push s i).log = s.log := by simp only [push]; split <;> rfl
      have er : ran { push s i with started := s.started ++ [i], deferred := s.deferred ++ [i], queue := s.queue ++ [i] } = ran s := by
        simp only [ran, e5]
      refine ⟨hnd, ?_, ?_, ?_, ?_, ?_, ?_, ?_, ?_, ?_⟩
      · rw [er, ← List.append_assoc]; exact h.all.append_right _
      · simp only [push]
        have htl := h.tl
        have hhd := h.hd
        cases hq' : s.queue with
        | nil => simp [hq'] at htl; simp [htl]
        | cons x l =>
          rw [hq'] at htl
          cases hp : (x :: l).getLast? with
          | none => simp at hp
          | some p => rw [hp] at htl; simp [htl, hhd, hq']
      · simp only [push]; split <;> simp
      · simp only [push]
        have htl := h.tl
        cases hp : s.queue.getLast? with
        | none =>
          have : s.queue = [] := by simpa using hp
          rw [hp] at htl
          simp [htl, this, Chain, h.nx i (by simp [this])]
        | some p =>
          rw [hp] at htl
          simp only [htl]
          exact chain_snoc h.ch hp (queue_nodup h) hq (h.nx i hq)
      · intro j hj
        simp only [List.mem_append, List.mem_singleton, not_or] at hj
        simp only [push]
        cases ht : s.tail with
        | none => exact h.nx j hj.1
        | some p =>
          have hpm : p ∈ s.queue := by
            have := h.tl; rw [ht] at this; exact List.mem_of_mem_getLast? (by simp [← this])
          have : j ≠ p := fun e => hj.1 (e ▸ hpm)
          simp only [upd_other _ _ this]; exact h.nx j hj.1
      · intro hf; simp [e2, hact] at hf
      · intro _; simp only [e3, e4.1, e4.2]; exact h.dep hact
      · intro j hj; simp at hj ⊢; rcases hj with hj | rfl
        · exact Or.inl (h.sub j hj)
        · exact Or.inr rfl
      · rw [er]; simp only
        rw [filter_fresh hr, ← List.append_assoc, h.fifo]
  | ret =>
    simp only [step] at hs
    split at hs <;> cases hs
    rename_i x l hk
    refine ⟨h.nd, h.all, h.hd, h.tl, h.ch, h.nx, ?_, ?_, h.sub, h.fifo⟩
    · intro ha; have := (h.idle ha).2; simp [hk] at this
    · intro ha; have := h.dep ha; simp [hk] at this ⊢; omega
  | drain =>
    simp only [step] at hs
    split at hs
    · rename_i hc
      split at hs
      · rename_i hh
        cases hs
        have hq0 : s.queue = [] := by have := h.hd; rw [hh] at this; simpa using this.symm
        exact ⟨h.nd, h.all, h.hd, h.tl, h.ch, h.nx, fun _ => ⟨hq0, hc.2⟩, by simp, h.sub, h.fifo⟩
      · rename_i o hh
        cases hs
        have hhd := h.hd
        cases hq : s.queue with
        | nil => rw [hh, hq] at hhd; simp at hhd
        | cons x l =>
          rw [hh, hq] at hhd
          simp at hhd; subst hhd
          have hnd := queue_nodup h
          rw [hq] at hnd
          have hxl : o ∉ l := (List.nodup_cons.1 hnd).1
          have hch := h.ch
          rw [hq] at hch
          have hnx : s.next o = l.head? := by
            cases l with
            | nil => simpa [Chain] using hch
            | cons y l => simpa [Chain] using hch.1
          have hchl : Chain s.next l := by
            cases l with
            | nil => trivial
            | cons y l => exact hch.2
          have e5 : (pop s o).log = s.log := by simp only [pop]; split <;> rfl
          have e6 : (pop s o).stop = s.stop := by simp only [pop]; split <;> rfl
          have e7 : (pop s o).stack = s.stack := by simp only [pop]; split <;> rfl
          have e8 : (pop s o).active = s.active ∧ (pop s o).maxDepth = s.maxDepth := by simp only [pop]; split <;> exact ⟨rfl, rfl⟩
          have e9 : (pop s o).started = s.started ∧ (pop s o).deferred = s.deferred := by
            simp only [pop]; split <;> exact ⟨rfl, rfl⟩
          have e10 : (pop s o).next = upd s.next o none := by simp only [pop]; split <;> rfl
          have hod : o ∈ s.deferred := by rw [← h.fifo, hq]; simp
          refine ⟨?_, ?_, ?_, ?_, ?_, ?_, ?_, ?_, ?_, ?_⟩
          · simpa [execute, e9.1] using h.nd
          · simp only [execute, ran, e5, e6, e9.1, List.map_append, List.map_cons, List.map_nil, List.tail_cons]
            have := h.all
            rw [hq] at this
            simpa [ran] using this
          · simp only [execute, pop, hnx, List.tail_cons]
            cases l <;> simp
          · simp only [execute, pop, hnx, List.tail_cons]
            have htl := h.tl
            rw [hq] at htl
            cases l with
            | nil => simp
            | cons y l => simpa using htl
          · simp only [execute, e10, List.tail_cons]
            exact chain_congr (fun x hx => by rw [upd_other]; intro e; exact hxl (e ▸ hx)) hchl
          · intro j hj
            simp only [execute, e10]
            simp only [execute, List.tail_cons] at hj
            by_cases hjo : j = o
            · subst hjo; simp
            · rw [upd_other _ _ hjo]; exact h.nx j (by rw [hq]; simp [hjo, hj])
          · intro ha; simp [execute, e8.1, hc.1] at ha
          · intro _; simp only [execute, e7, hc.2, e8.2]; simp; omega
          · simpa [execute, e9.1, e9.2] using h.sub
          · have hf := h.fifo
            rw [hq] at hf
            simp only [execute, ran, e5, e6, e9.2, List.map_append, List.map_cons, List.map_nil, List.filter_append,
              List.tail_cons] at hf ⊢
            simp only [hod, decide_true, List.filter_cons, List.filter_nil, if_true]
            simpa using hf
    · cases hs
  | requestStop i =>
    simp only [step, Option.some.injEq] at hs; subst hs
    exact ⟨h.nd, h.all, h.hd, h.tl, h.ch, h.nx, h.idle, h.dep, h.sub, h.fifo⟩

theorem inv_reach {mx : Nat → Nat} {s : St} (h : Reachable mx s) : Inv s :=
  Reach.inv Inv inv_init (fun _ a _ h hs => inv_step a h hs) s h

/-- No operation completes twice, and only started operations complete. -/
theorem C42_once {mx : Nat → Nat} {s : St} (h : Reachable mx s) : (ran s).Nodup ∧ ∀ i ∈ ran s, i ∈ s.started := by
  have hI := inv_reach h
  exact ⟨(List.nodup_append.1 (hI.all.nodup_iff.2 hI.nd)).1, fun i hi => hI.all.subset (by simp [hi])⟩

/-- When the outermost `start` has returned, every operation started so far has completed. -/
theorem C42_all {mx : Nat → Nat} {s : St} (h : Reachable mx s) (ha : s.active = false) :
    List.Perm (ran s) s.started := by
  have hI := inv_reach h
  have := hI.all
  rwa [(hI.idle ha).1, List.append_nil] at this

/-- The nesting of completions on the call stack is bounded by the origin's limit. -/
theorem C42_depth {mx : Nat → Nat} {s : St} (h : Reachable mx s) : s.stack.length ≤ max 1 s.maxDepth := by
  have hI := inv_reach h
  cases ha : s.active with
  | false => simp [(hI.idle ha).2]
  | true => have := hI.dep ha; omega

/-- The limit is the one of the scheduler whose operation is the origin frame: the first started while none was active. -/
theorem C42_depth_limit {mx : Nat → Nat} {s s' : St} {a : Act} (hs : step mx s a = some s') :
    s'.maxDepth = s.maxDepth ∨ (s.active = false ∧ ∃ i big, a = .start i big ∧ s'.maxDepth = mx i ∧ s'.stack = i :: s.stack) := by
  cases a <;> simp only [step] at hs
  · split at hs
    · cases hs
    split at hs
    · cases hs; rename_i i big _ ha; exact Or.inr ⟨ha, i, big, rfl, rfl, rfl⟩
    split at hs
    · cases hs
    split at hs <;> cases hs
    · exact Or.inl rfl
    · left; simp only [push]; split <;> rfl
  · split at hs <;> cases hs; exact Or.inl rfl
  · split at hs
    · split at hs <;> cases hs
      · exact Or.inl rfl
      · left; simp only [execute, pop]; split <;> rfl
    · cases hs
  · cases hs; exact Or.inl rfl

/-- Deferred operations run in the order in which they were deferred: those that ran are a prefix. -/
theorem C42_fifo {mx : Nat → Nat} {s : St} (h : Reachable mx s) :
    (ran s).filter (fun i => decide (i ∈ s.deferred)) <+: s.deferred :=
  ⟨s.queue, (inv_reach h).fifo⟩

/-- An operation that is deferred is one started while another is running. -/
theorem C42_deferred {mx : Nat → Nat} {s s' : St} {a : Act} (hs : step mx s a = some s') :
    s'.deferred = s.deferred ∨ (s.stack ≠ [] ∧ ∃ i big, a = .start i big ∧ s'.deferred = s.deferred ++ [i] ∧ s'.stack = s.stack) := by
  cases a <;> simp only [step] at hs
  · split at hs
    · cases hs
    split at hs
    · cases hs; exact Or.inl rfl
    split at hs
    · cases hs
    split at hs <;> cases hs
    · exact Or.inl rfl
    · rename_i i big _ _ hst _
      right; refine ⟨hst, i, big, rfl, rfl, ?_⟩; simp only [push]; split <;> rfl
  · split at hs <;> cases hs; exact Or.inl rfl
  · split at hs
    · split at hs <;> cases hs
      · exact Or.inl rfl
      · left; simp only [execute, pop]; split <;> rfl
    · cases hs
  · cases hs; exact Or.inl rfl

/-- A completion is stopped exactly if stop was requested on the operation's token by then. -/
theorem C42_stopped {mx : Nat → Nat} {s s' : St} {a : Act} (hs : step mx s a = some s') :
    s'.log = s.log ∨ ∃ i, s'.log = s.log ++ [(i, s.stop i)] ∧ s'.stack = i :: s.stack := by
  cases a <;> simp only [step] at hs
  · split at hs
    · cases hs
    split at hs
    · cases hs; exact Or.inr ⟨_, rfl, rfl⟩
    split at hs
    · cases hs
    split at hs <;> cases hs
    · exact Or.inr ⟨_, rfl, rfl⟩
    · left; simp only [push]; split <;> rfl
  · split at hs <;> cases hs; exact Or.inl rfl
  · split at hs
    · split at hs <;> cases hs
      · exact Or.inl rfl
      · right; rename_i o _; refine ⟨o, ?_⟩; simp only [execute, pop]; split <;> exact ⟨rfl, rfl⟩
    · cases hs
  · cases hs; exact Or.inl rfl

/-- Work left when no further operations are started. -/
def work (s : St) : Nat := 2 * s.queue.length + s.stack.length + (if s.active then 1 else 0)

/-- While the outermost `start` has not returned the thread can go on, and its own steps terminate: an execution that
starts finitely many operations returns from the outermost `start`. -/
theorem C42_terminates {mx : Nat → Nat} {s : St} (h : Reachable mx s) :
    (s.active = true → (step mx s .ret).isSome ∨ (step mx s .drain).isSome) ∧
    ∀ a s', (a = .ret ∨ a = .drain) → step mx s a = some s' → work s' < work s := by
  have hI := inv_reach h
  constructor
  · intro ha
    cases hk : s.stack with
    | cons x l => left; simp [step, hk]
    | nil => right; simp only [step, ha, hk, and_self, if_true]; split <;> rfl
  · rintro a s' (rfl | rfl) hs
    · simp only [step] at hs
      split at hs <;> cases hs
      rename_i x l hk
      simp [work, hk]
    · simp only [step] at hs
      split at hs
      · rename_i hc
        split at hs
        · cases hs; simp [work, hc.1]
        · rename_i o hh
          cases hs
          have hhd := hI.hd
          cases hq : s.queue with
          | nil => rw [hh, hq] at hhd; simp at hhd
          | cons x l =>
            have e7 : (pop s o).stack = s.stack := by simp only [pop]; split <;> rfl
            have e8 : (pop s o).active = s.active := by simp only [pop]; split <;> rfl
            simp [work, execute, e7, e8, hc.2, hc.1, hq]; omega
      · cases hs

/-- Not vacuous: limit 2; operation 0 starts 1 (inline) which starts 2 and 3 (deferred), stop is requested on 3. -/
example : ∃ s, Reachable (fun _ => 2) s ∧ s.active = false ∧ s.log = [(0, false), (1, false), (2, false), (4, false), (3, true)] ∧
    s.deferred = [2, 3] := by
  obtain ⟨s, hr, hp⟩ := Reach.witness (init := init) (step := step (fun _ => 2))
    [.start 0 false, .start 1 false, .start 2 false, .start 3 false, .requestStop 3, .ret, .ret, .drain, .start 4 false, .ret,
     .ret, .drain, .ret, .drain]
    (fun s : St => !s.active && s.log == [(0, false), (1, false), (2, false), (4, false), (3, true)] && s.deferred == [2, 3]) (by decide)
  simp only [Bool.and_eq_true, Bool.not_eq_true', beq_iff_eq] at hp
  exact ⟨s, hr, hp.1.1, hp.1.2, hp.2⟩

end Verif.Trampoline
