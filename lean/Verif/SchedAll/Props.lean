import Verif.SchedAll.Inv
/-!
# `schedule_all` on the static thread pool — theorems (C91)
-/
namespace Verif.SchedAll

/-- A run of five elements in chunks of two: elements 1 and 3 are started later, 4 is never started. -/
def exCfg : Cfg :=
  { n := 5, chunk := 2, kind := fun i => if i = 1 ∨ i = 3 then .late else if i = 4 then .skip else .direct
    throwAt := none, waits := true }

/-- A prefix of that run: everything connected, the first chunk started, element 0 delivered, element 1 listed. -/
def exRun : List Act :=
  List.replicate 8 .starter ++ [.lateLock 1, .starter, .lateTest 1] ++ List.replicate 3 .starter ++
  [.run 0, .run 1, .done 1, .starter, .starter, .starter, .starter, .starter, .starter, .starter, .starter, .starter, .starter,
    .starter, .lateLock 3, .lateTest 3, .lateEnq 3, .run 3, .run 2, .done 2, .done 3, .done 0, .destroy]

/-- **C91**: `set_next` is called once for each element, in the order of the range. -/
theorem C91_nexts {c : Cfg} {s : St} (h : Reachable c s) : ∃ k, k ≤ c.n ∧ s.nexts = List.range k :=
  (inv_reach h).nextsE

/-- **C91**: no element is delivered twice, none outside the range is, and none that its sender refused is. -/
theorem C91_once {c : Cfg} {s : St} (h : Reachable c s) :
    s.given.Nodup ∧ (∀ i, i ∈ s.given → i < c.n) ∧ ∀ i, i ∈ s.given → i ∉ s.skipped := by
  have hi := inv_reach h
  refine ⟨hi.givenNd, fun i hg => lt_of_item hi ?_, fun i hg hs => (hi.skip1 i hs).2.1 hg⟩
  rcases hi.given1 i hg with h1 | h1 <;> rw [h1] <;> simp

/-- **C91**: the receiver is completed at most once. -/
theorem C91_completes_once {c : Cfg} {s : St} (h : Reachable c s) : s.out.length ≤ 1 := by
  have hi := inv_reach h
  by_cases he : Sig.error ∈ s.out
  · rw [(hi.err he).1]; simp
  · rw [hi.out he]; split <;> simp

/-- **C91**: when it is completed with a value, the sender of every element has completed, every element has been delivered
unless its sender completed without asking for it, and no connecting threw. -/
theorem C91_value {c : Cfg} {s : St} (h : Reachable c s) (hv : Sig.value ∈ s.out) :
    (∀ i, i < c.n → s.item i = .finished) ∧ (∀ i, i < c.n → i ∉ s.skipped → i ∈ s.given) ∧
    (∀ i, i < c.n → c.kind i = .direct → i ∈ s.given) := by
  have hi := inv_reach h
  have he : Sig.error ∉ s.out := fun he => by rw [(hi.err he).1] at hv; simp at hv
  have ho := hi.out he
  have h0 : s.countdown = 0 := by
    by_cases h0 : s.countdown = 0
    · exact h0
    · rw [ho] at hv; simp [h0] at hv
  have hf := opens_zero (hi.count ▸ h0)
  refine ⟨hf, fun i hn hs => ?_, fun i hn hk => ?_⟩
  · rcases hi.fin i (hf i hn) with h1 | h1
    · exact h1
    · exact absurd h1 hs
  · rcases hi.fin i (hf i hn) with h1 | h1
    · exact h1
    · exact absurd hk (hi.skip1 i h1).2.2

/-- **C91**: it is completed with an error only if connecting some element threw; then nothing has been started and nothing
has been or will be delivered. -/
theorem C91_error {c : Cfg} {s : St} (h : Reachable c s) (he : Sig.error ∈ s.out) :
    (∃ k, c.throwAt = some k ∧ k < c.n) ∧ s.given = [] ∧ s.skipped = [] ∧
    ∀ i, s.item i = .none ∨ s.item i = .connected := by
  have hi := inv_reach h
  have h3 := (hi.err he).2.2
  refine ⟨hi.errAt he, ?_, ?_, h3⟩
  · cases hg : s.given with
    | nil => rfl
    | cons a l =>
      have := hi.given1 a (by rw [hg]; simp)
      rcases h3 a with h4 | h4 <;> rw [h4] at this <;> simp at this
  · cases hg : s.skipped with
    | nil => rfl
    | cons a l =>
      have := (hi.skip1 a (by rw [hg]; simp)).1
      rcases h3 a with h4 | h4 <;> rw [h4] at this <;> simp at this

/-- **C91**: and if connecting some element throws, no element is ever delivered and the operation does not end with a value. -/
theorem C91_throw {c : Cfg} {s : St} {k : Nat} (h : Reachable c s) (ht : c.throwAt = some k) (hk : k < c.n) :
    s.given = [] ∧ Sig.value ∉ s.out := by
  have hi := inv_reach h
  by_cases he : Sig.error ∈ s.out
  · refine ⟨(C91_error h he).2.1, ?_⟩
    rw [(hi.err he).1]; simp
  · by_cases hp : ∀ j, s.pc ≠ .conn j
    · have := hi.noErr hp he k ht; omega
    · simp only [Classical.not_forall, Classical.not_not] at hp
      obtain ⟨j, hp⟩ := hp
      have hc := hi.conn j hp
      refine ⟨?_, fun hv => ?_⟩
      · cases hg : s.given with
        | nil => rfl
        | cons a l =>
          have h1 := hi.given1 a (by rw [hg]; simp)
          have h2 : a < c.n := lt_of_item hi (by rcases h1 with h1 | h1 <;> rw [h1] <;> simp)
          rw [hc a h2] at h1
          split at h1 <;> simp at h1
      · have h1 := (C91_value h hv).1 k hk
        rw [hc k hk] at h1
        split at h1 <;> simp at h1

/-- What is still to be done for an item. -/
def irank : Item → Nat
  | .none => 9
  | .connected => 8
  | .late => 7
  | .holding => 6
  | .listed => 5
  | .handing => 5
  | .pool => 4
  | .running => 3
  | .finished => 0

def prank (c : Cfg) : PC → Nat
  | .conn _ => 10 * c.n + 20
  | .fill i0 _ => 10 * (c.n - i0) + 9
  | .lockC i0 => 10 * (c.n - i0) + 8
  | .flushC i0 => 10 * (c.n - i0) + 7
  | .unlockC i0 => 10 * (c.n - i0) + 6
  | .last _ => 5
  | .lockF => 4
  | .flushF => 3
  | .unlockF => 2
  | .ret => 0

/-- The steps that remain. -/
def left (c : Cfg) (s : St) : Nat :=
  lsum irank s.item (List.range c.n) + prank c s.pc + if s.gone then 0 else 1

theorem irank_upd {n i : Nat} {item : Nat → Item} {x : Item} (h : i < n) :
    lsum irank (upd item i x) (List.range n) + irank (item i) = lsum irank item (List.range n) + irank x :=
  lsum_upd_in irank item List.nodup_range (List.mem_range.2 h)

theorem startItem_left {c : Cfg} {s s' : St} {i : Nat} (hn : i < c.n) (hc : s.item i = .connected)
    (hs : startItem c s i = some s') : lsum irank s'.item (List.range c.n) < lsum irank s.item (List.range c.n) ∧
    s'.gone = s.gone := by
  have h1 := irank_upd (x := .listed) (item := s.item) hn
  have h2 := irank_upd (x := .late) (item := s.item) hn
  have h3 := irank_upd (x := .finished) (item := s.item) hn
  rw [hc] at h1 h2 h3
  simp only [irank] at h1 h2 h3
  simp only [startItem] at hs
  split at hs
  · split at hs <;> cases hs
    exact ⟨by simp only [push]; omega, rfl⟩
  · cases hs; exact ⟨by dsimp only; omega, rfl⟩
  · cases hs; exact ⟨by simp only [finish]; omega, rfl⟩

theorem flush_left {c : Cfg} {s : St} (h : Inv c s) :
    lsum irank (flush s).item (List.range c.n) ≤ lsum irank s.item (List.range c.n) := by
  apply lsum_mono
  intro j _
  simp only [flush]
  split
  · rename_i hj; rw [(h.tasks j).1 hj]; simp [irank]
  · exact Nat.le_refl _

theorem left_starter {c : Cfg} {s s' : St} (hk : 1 ≤ c.chunk) (h : Inv c s) (hs : starter c s = some s') : left c s' < left c s := by
  have hok := h.ok
  cases hpc : s.pc with
  | conn k =>
    simp only [starter, hpc] at hs
    split at hs
    · rename_i hlt
      split at hs <;> cases hs
      · simp only [left, hpc, prank]; omega
      · have h1 := irank_upd (x := .connected) (item := s.item) hlt
        rw [h.conn k hpc k hlt] at h1
        simp only [Nat.lt_irrefl, if_false, irank] at h1
        simp only [left, hpc, prank]; omega
    · cases hs
      rcases nextChunk_cases c 0 with ⟨h1, h2⟩ | h1 <;> simp only [left, hpc, h1, prank] <;> omega
  | ret => simp [starter, hpc] at hs
  | fill i0 i =>
    obtain ⟨hne, _⟩ := alive_pc h (by rw [hpc]; simp)
    simp only [hpc, pcOk] at hok
    simp only [starter, hpc] at hs
    split at hs
    · cases hst : startItem c s i with
      | none => simp [hst] at hs
      | some t =>
        simp only [hst, Option.map_some, Option.some.injEq] at hs; subst hs
        have := startItem_left (by omega) (h.rest (by simp [hpc]) hne i (by simp [hpc, bound]) (by omega)) hst
        simp only [left, hpc, prank, this.2]; omega
    · cases hs; simp only [left, hpc, prank]; omega
  | last i =>
    obtain ⟨hne, _⟩ := alive_pc h (by rw [hpc]; simp)
    simp only [starter, hpc] at hs
    split at hs
    · rename_i hlt
      cases hst : startItem c s i with
      | none => simp [hst] at hs
      | some t =>
        simp only [hst, Option.map_some, Option.some.injEq] at hs; subst hs
        have := startItem_left hlt (h.rest (by simp [hpc]) hne i (by simp [hpc, bound]) hlt) hst
        simp only [left, hpc, prank, this.2]; omega
    · cases hs; simp only [left, hpc, prank]; omega
  | lockC i0 =>
    simp only [starter, hpc] at hs
    split at hs <;> cases hs
    simp only [left, hpc, prank]; omega
  | lockF =>
    simp only [starter, hpc] at hs
    split at hs <;> cases hs
    simp only [left, hpc, prank]; omega
  | flushC i0 =>
    simp only [starter, hpc] at hs
    cases hs
    have := flush_left h
    have h1 : left c s = lsum irank s.item (List.range c.n) + (10 * (c.n - i0) + 7) + (if s.gone then 0 else 1) := by
      simp only [left, hpc, prank]
    have h2 : left c { flush s with pc := .unlockC i0 } = lsum irank (flush s).item (List.range c.n) + (10 * (c.n - i0) + 7) - 1 + (if s.gone then 0 else 1) := rfl
    rw [h1, h2]; omega
  | flushF =>
    simp only [starter, hpc] at hs
    cases hs
    have := flush_left h
    have h1 : left c s = lsum irank s.item (List.range c.n) + 3 + (if s.gone then 0 else 1) := by
      simp only [left, hpc, prank]
    have h2 : left c { flush { s with hasStarted := true } with pc := .unlockF } = lsum irank (flush s).item (List.range c.n) + 3 - 1 + (if s.gone then 0 else 1) := rfl
    rw [h1]; refine Nat.lt_of_le_of_lt (Nat.le_of_eq h2) ?_; omega
  | unlockC i0 =>
    simp only [hpc, pcOk] at hok
    simp only [starter, hpc] at hs
    cases hs
    rcases nextChunk_cases c (i0 + c.chunk) with ⟨h1, h2⟩ | h1 <;> simp only [left, hpc, h1, prank] <;> omega
  | unlockF =>
    simp only [starter, hpc] at hs
    cases hs
    simp only [left, hpc, prank]; omega

theorem left_step {c : Cfg} {s s' : St} {a : Act} (hk : 1 ≤ c.chunk) (h : Inv c s) (hs : step c s a = some s') :
    left c s' < left c s := by
  have key : ∀ (i : Nat) (x : Item), s.item i ≠ .none → irank x < irank (s.item i) →
      lsum irank (upd s.item i x) (List.range c.n) < lsum irank s.item (List.range c.n) := by
    intro i x h1 h2
    have := irank_upd (x := x) (item := s.item) (lt_of_item h h1)
    omega
  cases a with
  | starter => exact left_starter hk h hs
  | lateLock i =>
    simp only [step] at hs; split at hs <;> cases hs
    rename_i hi; have := key i .holding (by simp [hi.1]) (by simp [hi.1, irank])
    simp only [left]; omega
  | lateTest i =>
    simp only [step] at hs; split at hs
    · rename_i hi
      have h1 := key i .handing (by simp [hi]) (by simp [hi, irank])
      have h2 := key i .listed (by simp [hi]) (by simp [hi, irank])
      split at hs <;> cases hs <;> simp only [left] <;> omega
    · cases hs
  | lateEnq i =>
    simp only [step] at hs; split at hs <;> cases hs
    rename_i hi; have := key i .pool (by simp [hi]) (by simp [hi, irank])
    simp only [left]; omega
  | lateSkip i =>
    simp only [step] at hs; split at hs <;> cases hs
    rename_i hi; have := key i .finished (by simp [hi]) (by simp [hi, irank])
    dsimp only [left, finish]; omega
  | run i =>
    simp only [step] at hs; split at hs <;> cases hs
    rename_i hi; have := key i .running (by simp [hi]) (by simp [hi, irank])
    simp only [left]; omega
  | done i =>
    simp only [step] at hs; split at hs <;> cases hs
    rename_i hi; have := key i .finished (by simp [hi]) (by simp [hi, irank])
    dsimp only [left, finish]; omega
  | destroy =>
    simp only [step] at hs; split at hs <;> cases hs
    rename_i hi; simp only [left, hi.2.1]; simp

/-- **C91**: it does not go on for ever (`chunk_size` is at least 1, `:1730`): no execution takes more than `19 n + 21` steps. -/
theorem C91_terminates {c : Cfg} {s : St} (hk : 1 ≤ c.chunk) (as : List Act) (he : exec (step c) (init c) as = some s) :
    as.length ≤ 19 * c.n + 21 := by
  have := run_bound (step := step c) (fun _ => true) (Inv c) (left c)
    (fun s a s' hp _ hs => ⟨inv_step hp hs, left_step hk hp hs⟩) as (init c) s (inv_init c) (by simp) he
  have hl : ∀ l : List Nat, lsum irank (fun _ => Item.none) l = 9 * l.length := by
    intro l; induction l with
    | nil => rfl
    | cons a l ih => simp only [lsum, ih, irank, List.length_cons]; omega
  have h2 : prank c (init c).pc ≤ 10 * c.n + 20 := by
    simp only [init]; split <;> simp [prank]
  simp only [left] at this
  have h3 : (init c).item = fun _ => Item.none := rfl
  have h4 : (init c).gone = false := rfl
  rw [h3, hl, h4] at this
  simp at this
  omega

/-- **C91**: nor does it get stuck: when the thread in `start`, the pool and the senders can do nothing more, `start` has
returned and the receiver has been completed. -/
theorem C91_completes {c : Cfg} {s : St} (h : Reachable c s) (hs : ∀ a, a ≠ .destroy → step c s a = none) :
    s.pc = .ret ∧ s.out.length = 1 := by
  have hi := inv_reach h
  have h1 : ∀ i, s.item i ≠ .late := fun i hx => by
    have := hs (.lateSkip i) (by simp); simp [step, hx] at this
  have h2 : ∀ i, s.item i ≠ .holding := fun i hx => by
    have := hs (.lateTest i) (by simp); simp only [step, hx, if_true] at this; split at this <;> cases this
  have h3 : ∀ i, s.item i ≠ .handing := fun i hx => by
    have := hs (.lateEnq i) (by simp); simp [step, hx] at this
  have h4 : ∀ i, s.item i ≠ .pool := fun i hx => by
    have := hs (.run i) (by simp); simp [step, hx] at this
  have h5 : ∀ i, s.item i ≠ .running := fun i hx => by
    have := hs (.done i) (by simp); simp [step, hx] at this
  have hst : starter c s = none := hs .starter (by simp)
  have hfree : s.owner = .starter ∨ s.owner = .free := by
    cases ho : s.owner with
    | free => exact .inr rfl
    | starter => exact .inl rfl
    | other i => exact absurd ((hi.own2 i).1 ho) (h2 i)
  have hret : s.pc = .ret := by
    have hsi : s.owner = .free → ∀ i, startItem c s i ≠ none := by
      intro ho i; simp only [startItem]; split <;> simp [ho]
    have hof : holds s.pc = false → s.owner = .free := by
      intro hh
      rcases hfree with ho | ho
      · rw [hi.own1.1 ho] at hh; cases hh
      · exact ho
    cases hpc : s.pc with
    | ret => rfl
    | conn k => exfalso; simp only [starter, hpc] at hst; split at hst <;> (try split at hst) <;> cases hst
    | fill i0 i =>
      have := hsi (hof (by simp [hpc, holds])) i
      exfalso; simp only [starter, hpc] at hst; split at hst <;> simp_all
    | last i =>
      have := hsi (hof (by simp [hpc, holds])) i
      exfalso; simp only [starter, hpc] at hst; split at hst <;> simp_all
    | lockC i0 =>
      have := hof (by simp [hpc, holds])
      exfalso; simp [starter, hpc, this] at hst
    | lockF =>
      have := hof (by simp [hpc, holds])
      exfalso; simp [starter, hpc, this] at hst
    | flushC i0 => exfalso; simp [starter, hpc] at hst
    | flushF => exfalso; simp [starter, hpc] at hst
    | unlockC i0 => exfalso; simp [starter, hpc] at hst
    | unlockF => exfalso; simp [starter, hpc] at hst
  refine ⟨hret, ?_⟩
  by_cases he : Sig.error ∈ s.out
  · rw [(hi.err he).1]; rfl
  · have hz : s.countdown = 0 := by
      rw [hi.count]
      apply lsum_eq_zero
      intro i hm
      have hn : i < c.n := List.mem_range.1 hm
      have hst := hi.started (by simp [hret]) he i (by simpa [hret, bound] using hn) hn
      have hl : s.item i ≠ .listed := fun hx => by
        have hm := (hi.tasks i).2 hx
        cases hh : s.hasStarted with
        | true => rw [(hi.has1 hh).1] at hm; simp at hm
        | false =>
          rcases (hi.has2 hh).2.2 hret with h6 | h6
          · exact he h6
          · omega
      have hf : s.item i = .finished := by
        cases hx : s.item i <;> simp_all
      rw [hf]; rfl
    rw [hi.out he, hz]; rfl

/-- **C91** (partial: for owners that do not destroy the operation state before `start` has returned): neither the thread in
`start`, nor the pool, nor a sender uses the operation state after its destruction. The full claim — for owners that destroy it as
soon as the receiver has been completed, which every receiver may do — is refuted below. -/
theorem C91_no_uaf_partial {c : Cfg} {s : St} (h : Reachable c s) (hw : c.waits = true) : s.uaf = false :=
  (inv_reach h).uaf hw

/-- **C91** (the code violates the full claim): with one element, the pool may run it and complete the receiver before the
thread in `start` releases `start_mutex_` (`:1772-1775`), which is then the mutex of a destroyed operation state. -/
theorem C91_uaf_violated :
    ∃ c : Cfg, ∃ s, 1 ≤ c.chunk ∧ c.throwAt = none ∧ (∀ i, c.kind i = .direct) ∧ Reachable c s ∧ s.out = [.value] ∧ s.uaf = true := by
  let c : Cfg := ⟨1, 1, fun _ => .direct, none, false⟩
  have := Reach.witness (init := init c) (step := step c)
    [.starter, .starter, .starter, .starter, .starter, .starter, .run 0, .done 0, .destroy, .starter]
    (fun s : St => decide (s.out = [.value] ∧ s.uaf = true)) (by decide)
  obtain ⟨s, hr, hp⟩ := this
  have hp := of_decide_eq_true hp
  exact ⟨c, s, by decide, rfl, fun _ => rfl, hr, hp.1, hp.2⟩

/-- Not vacuous: the run of `exRun` is an execution; it delivers every element but the one its sender refused. -/
example : ∃ s, Reachable exCfg s ∧ s.out = [.value] ∧ s.given = [0, 1, 3, 2] ∧ s.skipped = [4] ∧ s.nexts = [0, 1, 2, 3, 4] ∧
    s.gone = true ∧ s.uaf = false := by
  have := Reach.witness (init := init exCfg) (step := step exCfg) exRun
    (fun s : St => decide (s.out = [.value] ∧ s.given = [0, 1, 3, 2] ∧ s.skipped = [4] ∧ s.nexts = [0, 1, 2, 3, 4] ∧
    s.gone = true ∧ s.uaf = false)) (by decide)
  obtain ⟨s, hr, hp⟩ := this
  exact ⟨s, hr, of_decide_eq_true hp⟩

/-- Not vacuous: connecting the third of four elements throws. -/
example : ∃ s, Reachable ⟨4, 2, fun _ => .direct, some 2, false⟩ s ∧ s.out = [.error] ∧ s.nexts = [0, 1, 2] := by
  have := Reach.witness (init := init ⟨4, 2, fun _ => .direct, some 2, false⟩) (step := step ⟨4, 2, fun _ => .direct, some 2, false⟩)
    [.starter, .starter, .starter] (fun s : St => decide (s.out = [.error] ∧ s.nexts = [0, 1, 2])) (by decide)
  obtain ⟨s, hr, hp⟩ := this
  exact ⟨s, hr, of_decide_eq_true hp⟩

end Verif.SchedAll
