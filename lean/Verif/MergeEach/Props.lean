import Verif.MergeEach.Step2
import Verif.Run
/-!
# `exec::merge_each`: property C49

`s.log` is the list of calls made on the output receiver; `s.sig j` the signal with which child `j` completed (child
`0` is the sequence of sequences); `s.reports` the errors in the order in which they reached the operation.
-/
namespace Verif.MergeEach

/-- The output receiver was completed. -/
def Completed (s : St) : Prop := ∃ ev ∈ s.log, ev.term = true

theorem completed_terms {s : St} : Completed s ↔ terms s.log ≠ 0 := by
  simp only [terms, Completed, ne_eq, List.length_eq_zero_iff, List.filter_eq_nil_iff]
  constructor
  · rintro ⟨ev, h1, h2⟩ h; exact absurd h2 (by simpa using h ev h1)
  · intro h
    simp only [Classical.not_forall] at h
    obtain ⟨ev, h1, h2⟩ := h
    exact ⟨ev, h1, by simpa using h2⟩

theorem completed_active {s : St} (hi : Inv s) (h : Completed s) : s.active = 0 ∧ ∀ j, (s.pc j).f = 0 := by
  have := completed_terms.1 h
  have hf := hi.fin
  split at hf
  · rename_i h'
    refine ⟨h'.2, fun j => ?_⟩
    by_cases hj : j ∈ s.agents
    · have := le_lsum (c := Pc.f) (f := s.pc) hj; omega
    · have : s.pc j = .absent := by
        by_cases h : s.pc j = .absent
        · exact h
        · exact absurd (hi.mem h) hj
      rw [this]; rfl
  · omega

/-- The output receiver is completed at most once. -/
theorem C49_once {b : Bool} {s : St} (h : Reachable b s) : (s.log.filter Ev.term).length ≤ 1 := by
  have := (inv_reach h).fin
  simp only [terms] at this
  split at this <;> omega

/-- The completion is the last call made on the output receiver. -/
theorem C49_completion_last {b : Bool} {s : St} (h : Reachable b s) {l₁ l₂ : List Ev} {ev : Ev}
    (hl : s.log = l₁ ++ ev :: l₂) (he : ev.term = true) : l₂ = [] := by
  have hi := inv_reach h
  obtain ⟨l, t, h1, h2, h3⟩ := hi.tl
  have hmem : ∀ (l l₁ l₂ : List Ev) (t : List Ev) (ev x : Ev), l ++ t = l₁ ++ ev :: l₂ → ev.term = true → Nexts l →
      ((∃ x, t = [x] ) ∨ (∃ x y, t = [x, y] ∧ x.term = false) ∨ t = []) → l₂ = [] := by
    intro l
    induction l with
    | nil =>
      intro l₁ l₂ t ev _ heq ht _ hc
      simp only [List.nil_append] at heq
      subst heq
      rcases hc with ⟨x, hx⟩ | ⟨x, y, hx, hxt⟩ | hx
      · cases l₁ with
        | nil => simp at hx; exact hx.2
        | cons a l => simp at hx
      · match l₁, hx with
        | [], hx => simp at hx; rw [hx.1, hxt] at ht; cases ht
        | [a], hx => simp at hx; exact hx.2.2
        | a :: b :: l, hx => simp at hx
      · simp at hx
    | cons a l ih =>
      intro l₁ l₂ t ev x heq ht hn hc
      cases l₁ with
      | nil =>
        simp only [List.cons_append, List.nil_append, List.cons.injEq] at heq
        obtain ⟨i, hi⟩ := hn a (by simp)
        rw [← heq.1, hi] at ht; cases ht
      | cons c l₁ =>
        simp only [List.cons_append, List.cons.injEq] at heq
        exact ih l₁ l₂ t ev x heq.2 ht (fun e h => hn e (by simp [h])) hc
  refine hmem l l₁ l₂ t ev ev (by rw [← h1, hl]) he h2 ?_
  cases h3 <;> first
    | exact .inr (.inr rfl)
    | exact .inl ⟨_, rfl⟩
    | exact .inr (.inl ⟨_, _, rfl, rfl⟩)

/-- The output receiver is completed only when every child has completely finished: no child is running or executing a
completion handler, and an item that was never started has already been given up by its consumer. -/
theorem C49_after_children {b : Bool} {s : St} (h : Reachable b s) (hc : Completed s) (j : Nat) :
    s.pc j = .absent ∨ s.pc j = .done ∨ (s.pc j = .given ∧ s.acked j = true) := by
  have hi := inv_reach h
  obtain ⟨h0, hf⟩ := completed_active hi hc
  have hw := hi.quiet h0 j
  have hf := hf j
  have hk := hi.pk j
  cases hp : s.pc j with
  | absent => exact .inl rfl
  | done => exact .inr (.inl rfl)
  | given =>
    refine .inr (.inr ⟨rfl, ?_⟩)
    cases ha : s.acked j
    · exfalso
      have hm := hi.mem (j := j) (by simp [hp])
      have hown := hi.own j hm ha
      have hkn := hi.kn j hm
      cases hkj : s.kind j with
      | outer =>
        rw [hp, hkj] at hk; cases hk
      | seq => exact live_active hi (hown.1 hkj) h0
      | val o => exact live_active hi (hown.2 o hkj).1 h0
    · rfl
  | live0 => rw [hp] at hw; cases hw
  | live => rw [hp] at hw; cases hw
  | errItem => rw [hp] at hf; cases hf
  | run ops =>
    rw [hp] at hk hw hf
    rcases okP_w hk with h | h <;> omega

/-- Once the output receiver was completed nothing of merge_each runs any more: the only things that can still happen are
that a producer destroys an item it has finished with and that somebody requests stop; no call reaches the receiver. -/
theorem C49_nothing_after {b : Bool} {s s' : St} (h : Reachable b s) (hc : Completed s) {a : Act}
    (hs : step s a = some s') : (a = .extStop ∨ ∃ i, a = .destroy i) ∧ s'.log = s.log := by
  have hi := inv_reach h
  have hj := C49_after_children h hc
  have hb : s.begun = true := by
    cases hb : s.begun
    · have := (hi.pre hb).2.1
      obtain ⟨ev, h1, _⟩ := hc
      rw [this] at h1; cases h1
    · rfl
  cases a with
  | start => simp [step, stepStart, hb] at hs
  | nextSeq i =>
    simp only [step, stepNextSeq] at hs
    split at hs <;> cases hs
    rename_i h'; have := hj 0; simp [h'.1] at this
  | nextVal j i =>
    simp only [step, stepNextVal] at hs
    split at hs <;> cases hs
    rename_i h'; have := hj j; simp [h'.2.1] at this
  | «begin» i =>
    simp only [step, stepBegin] at hs
    split at hs
    · rename_i h'; have := hj i; simp [h'.1, h'.2] at this
    · cases hs
  | ack i =>
    exfalso
    obtain ⟨h0, _⟩ := completed_active hi hc
    have key : ∀ (ha : s.acked i = false) (hg : s.pc i ≠ .absent) (hk : s.kind i ≠ .outer), False := by
      intro ha hg hk
      have hown := hi.own i (hi.mem hg) ha
      cases hkj : s.kind i with
      | outer => exact hk hkj
      | seq => exact live_active hi (hown.1 hkj) h0
      | val o => exact live_active hi (hown.2 o hkj).1 h0
    simp only [step, stepAck] at hs
    split at hs
    · rename_i o ho
      split at hs <;> cases hs
      rename_i h'
      refine key h'.1 ?_ (by simp [ho])
      rcases h'.2 with h' | h'
      · simp [h']
      · exact (hi.nt i h').2.2.2
    · rename_i ho
      split at hs <;> cases hs
      rename_i h'
      exact key h'.1 (by simp [h'.2]) (by simp [ho])
    · cases hs
  | destroy i =>
    simp only [step, stepDestroy] at hs
    split at hs <;> cases hs
    exact ⟨.inr ⟨i, rfl⟩, rfl⟩
  | complete i sig =>
    simp only [step, stepComplete] at hs
    rcases hj i with h' | h' | h' <;> simp [h'] at hs
  | op i =>
    simp only [step, stepOp] at hs
    rcases hj i with h' | h' | h' <;> simp [h'] at hs
  | opThrow i e =>
    simp only [step, stepOpThrow] at hs
    rcases hj i with h' | h' | h' <;> simp [h'] at hs
  | errAck i =>
    simp only [step, stepErrAck] at hs
    rcases hj i with h' | h' | h' <;> simp [h'] at hs
  | extStop =>
    simp only [step, stepExtStop] at hs
    cases hs
    exact ⟨.inl rfl, rfl⟩

/-- When the output receiver has been completed, the errors that reached the operation are exactly those with which
children completed. -/
theorem C49_reports_exact {b : Bool} {s : St} (h : Reachable b s) (hc : Completed s) (j e : Nat) :
    (j, e) ∈ s.reports ↔ s.sig j = some (.error e) := by
  have h2 := inv2_reach h
  refine ⟨h2.s2 j e, fun hs => ?_⟩
  rcases h2.s3 j e hs with h' | h'
  · rcases C49_after_children h hc j with hp | hp | ⟨hp, _⟩ <;> simp [hp, Pc.rp] at h'
  · exact h'

/-- What a user is promised to see after the items `l` of the nested sequences. -/
inductive Outcome (s : St) : List Ev → Prop
  /-- Stop had been requested before start: nothing was started. -/
  | neverStarted (h : ∀ j, s.pc j = .absent) : Outcome s [.stopped]
  /-- No child failed and the sequence of sequences ended normally. -/
  | value (h : ∀ j e, s.sig j ≠ some (.error e)) (h0 : s.sig 0 = some .value) : Outcome s [.value]
  /-- No child failed and the sequence of sequences was stopped. -/
  | stopped (h : ∀ j e, s.sig j ≠ some (.error e)) (h0 : s.sig 0 = some .stopped) : Outcome s [.stopped]
  /-- The first error came from the sequence of sequences: it is the completion. -/
  | outerError {e : Nat} (h : s.reports.head? = some (0, e)) : Outcome s [.error e]
  /-- The first error came from another child: it is delivered as the last item. -/
  | lastItem {j e : Nat} (h : s.reports.head? = some (j, e)) (hj : j ≠ 0) : Outcome s [.errNext (some e), .value]
  /-- ... and the receiver's own token was stopped meanwhile. -/
  | lastItemStopped {j e : Nat} (h : s.reports.head? = some (j, e)) (hj : j ≠ 0) (hr : s.rcvStop = true) :
      Outcome s [.errNext (some e), .stopped]
  /-- ... or delivering it as an item threw. -/
  | lastItemThrew {j e e' : Nat} (h : s.reports.head? = some (j, e)) (hj : j ≠ 0) : Outcome s [.error e']

/-- The completion policy. -/
theorem C49_outcome {b : Bool} {s : St} (h : Reachable b s) (hc : Completed s) :
    ∃ l t, s.log = l ++ t ∧ (∀ ev ∈ l, ∃ i, ev = .next i) ∧ Outcome s t := by
  have hi := inv_reach h
  have h2 := inv2_reach h
  obtain ⟨l, t, h1, hn, h3⟩ := hi.tl
  refine ⟨l, t, h1, hn, ?_⟩
  have hns : s.reports = [] → ∀ j e, s.sig j ≠ some (.error e) := by
    intro hr j e hs
    have := (C49_reports_exact h hc j e).2 hs
    rw [hr] at this; cases this
  have hct : terms s.log ≠ 0 := completed_terms.1 hc
  rw [h1, terms_append, terms_nexts hn] at hct
  cases h3 with
  | nil => exact absurd rfl hct
  | unstarted h' =>
    refine .neverStarted fun j => ?_
    by_cases hp : s.pc j = .absent
    · exact hp
    · have := hi.mem hp; rw [h'] at this; cases this
  | value h0 hr ho hx =>
    refine .value (hns hr) ?_
    have hp := zero_first h _ hx
    · rcases C49_after_children h hc 0 with h' | h' | h'
      · exact absurd h' hp
      · obtain ⟨x, hx⟩ := sig_some h2 (i := 0) (by simp [h', Pc.early])
        cases x with
        | value => exact hx
        | error e => exact absurd hx (hns hr 0 e)
        | stopped => have := h2.s5.2 hx; rw [ho] at this; cases this
      · have := hi.pk 0; rw [h'.1, (hi.kn 0 (hi.mem hp)).2 rfl] at this; cases this
  | stopped h0 hr ho => exact .stopped (hns hr) (h2.s5.1 ho)
  | error h0 hr => exact .outerError hr
  | thrown h0 hr hj => exact .lastItemThrew hr hj
  | item => exact absurd rfl hct
  | itemValue h0 hr hj => exact .lastItem hr hj
  | itemStopped h0 hr hj hrs => exact .lastItemStopped hr hj hrs

/-- When the output receiver's token can be stopped: at completion, if any child failed or the sequence of sequences was
stopped, stop had been requested of the children.  (While the operation runs: it has been, or the child that is
responsible for it is about to do it.) -/
theorem C49_first_error_stops {s : St} (h : Reachable true s) :
    (s.reports ≠ [] → s.stopReq = true ∨ ∃ j ops, s.pc j = .run (.rstop :: ops)) ∧
    (Completed s → (∃ j e, s.sig j = some (.error e)) ∨ s.sig 0 = some .stopped → s.stopReq = true) := by
  have hi := inv_reach h
  have hst := stoppable_reach h
  have rs : ∀ j, (s.pc j).rs = true → ∃ ops, s.pc j = .run (.rstop :: ops) := by
    intro j hj
    generalize s.pc j = p at hj
    unfold Pc.rs at hj
    split at hj
    · exact ⟨_, rfl⟩
    · cases hj
  refine ⟨fun hr => ?_, fun hc hs => ?_⟩
  · refine (hi.sr hst ?_).imp id fun ⟨j, hj⟩ => ⟨j, rs j hj⟩
    rw [hi.rep.2 hr]; simp
  · have hne : s.compl ≠ .started := by
      rcases hs with ⟨j, e, hs⟩ | hs
      · have := (C49_reports_exact h hc j e).2 hs
        rw [hi.rep.2 (by intro h'; rw [h'] at this; cases this)]; simp
      · rcases hi.os ((inv2_reach h).s5.2 hs) with h' | h'
        · exact h'
        · rcases C49_after_children h hc 0 with hp | hp | ⟨hp, _⟩ <;> simp [hp, Pc.bk] at h'
    rcases hi.sr hst hne with h' | ⟨j, hj⟩
    · exact h'
    · obtain ⟨ops, hp⟩ := rs j hj
      rcases C49_after_children h hc j with h' | h' | ⟨h', _⟩ <;> rw [hp] at h' <;> cases h'

/-- If the output receiver's token cannot be stopped, the children never see a stop request, whatever errors occur -
although they are given the token of merge_each's own stop source and the documentation promises that the first error
requests stop. -/
theorem C49_unstoppable_never_stops {s : St} (h : Reachable false s) : s.stopReq = false := by
  have key : s.stopReq = false ∧ s.registered = false := by
    refine Reach.inv' (fun s => s.stopReq = false ∧ s.registered = false) (by simp [init]) ?_ s h
    intro s a s' hr hs0 hs
    have hst := stoppable_reach hr
    obtain ⟨h1, h2⟩ := hs0
    cases a <;> simp only [step, stepStart, stepNextSeq, stepNextVal, stepBegin, stepAck, stepDestroy, stepComplete, stepOp,
      stepOpThrow, stepErrAck, stepExtStop] at hs <;> (repeat' split at hs) <;> cases hs <;> simp_all
  exact key.1

/-- A nested sequence is running while a sibling's error has been reported and nothing will be stopped. -/
example : ∃ s, Reachable false s ∧ (s.reports = [(3, 7)] ∧ s.pc 3 = .done ∧ s.pc 1 = .live ∧ s.stopReq = false) := by
  obtain ⟨s, h1, h2⟩ := Reach.witness (init := init false) (step := step)
    [.start, .nextSeq 1, .begin 1, .complete 1 .value, .nextSeq 2, .begin 2, .complete 2 .value, .nextVal 2 3, .begin 3,
      .complete 3 (.error 7), .op 3, .op 3, .op 3, .op 3, .op 3, .op 3]
    (fun s : St => decide (s.reports = [(3, 7)]) && decide (s.pc 3 = .done) && decide (s.pc 1 = .live) && !s.stopReq)
    (by rfl)
  exact ⟨s, h1, by simpa [and_assoc] using h2⟩

/-- A complete run in which a nested value fails: two items, then the error as last item, then set_value. -/
example : ∃ s, Reachable true s ∧ (Completed s ∧ s.log = [.next 2, .next 3, .errNext (some 7), .value]) := by
  obtain ⟨s, h1, h2⟩ := Reach.witness (init := init true) (step := step)
    [.start, .nextSeq 1, .begin 1, .complete 1 .value, .nextVal 1 2, .begin 2, .nextVal 1 3, .begin 3,
      .complete 3 (.error 7), .complete 2 .value, .op 2, .op 3, .ack 2, .ack 3, .op 3, .op 3, .complete 1 .value, .op 3,
      .op 1, .complete 0 .value, .op 0, .op 1, .op 2, .op 3, .op 3, .op 3, .op 3, .errAck 3]
    (fun s : St => decide (s.log = [.next 2, .next 3, .errNext (some 7), .value]))
    (by rfl)
  simp only [decide_eq_true_eq] at h2
  exact ⟨s, h1, ⟨.value, by simp [h2], rfl⟩, h2⟩

/-! ### Progress -/

/-- Longest possible remainder of a handler. -/
def opW : Op → Nat
  | .fail _ | .except _ => 3
  | .brk => 2
  | .dec => 3
  | _ => 1

def opsW : List Op → Nat
  | [] => 0
  | o :: l => opW o + opsW l

def Pc.m : Pc → Nat
  | .run ops => opsW ops
  | _ => 0

def isOp : Act → Bool
  | .op _ => true
  | _ => false

theorem cont_m (ops : List Op) : (cont ops).m = opsW ops := by cases ops <;> rfl

theorem run_m (ops : List Op) : (Pc.run ops).m = opsW ops := rfl
theorem done_m : Pc.done.m = 0 := rfl
theorem errItem_m : Pc.errItem.m = 0 := rfl

theorem op_decreases {s s' : St} (hi : Inv s) {i : Nat} (hs : stepOp s i = some s') :
    lsum Pc.m s'.pc s'.agents < lsum Pc.m s.pc s.agents := by
  have key : ∀ p', s.pc i ≠ .absent → p'.m < (s.pc i).m → lsum Pc.m (upd s.pc i p') s.agents < lsum Pc.m s.pc s.agents := by
    intro p' hne hlt
    have := lsum_upd_in (c := Pc.m) (f := s.pc) (b := p') hi.nd (hi.mem hne)
    omega
  unfold stepOp at hs
  split at hs
  · rename_i o ops hp
    (repeat' split at hs) <;> cases hs <;>
      refine key _ (by simp [hp]) ?_ <;> simp only [hp, cont_m, run_m, done_m, errItem_m, opsW, opW] <;> omega
  · cases hs

/-- The completion handlers themselves always run to their end: from every reachable state at most so many handler
operations can be executed before another child has to complete. -/
theorem C49_handlers_terminate {b : Bool} {s s' : St} (h : Reachable b s) {as : List Act}
    (ha : ∀ a ∈ as, isOp a = true) (he : exec step s as = some s') : as.length ≤ lsum Pc.m s.pc s.agents := by
  refine run_bound isOp Inv (fun s => lsum Pc.m s.pc s.agents) ?_ as s s' (inv_reach h) ha he
  intro s a s' hi hsel hs
  cases a <;> simp only [isOp] at hsel <;> first | (cases hsel; done) | skip
  exact ⟨inv_stepOp hi hs, op_decreases hi hs⟩

/-- A handler operation is always enabled: a handler never waits. -/
theorem C49_handlers_never_block {b : Bool} {s : St} (h : Reachable b s) {i : Nat} {ops : List Op}
    (hp : s.pc i = .run ops) : ∃ s', step s (.op i) = some s' := by
  have hk := (inv_reach h).pk i
  simp only [hp, Pc.ok] at hk
  cases ops with
  | nil => cases hkk : s.kind i <;> simp [hkk, okP] at hk
  | cons o ops =>
    simp only [step, stepOp, hp]
    cases o <;> dsimp only <;> (repeat' split) <;> exact ⟨_, rfl⟩

/-- Once every child has completed and the handlers have run, and the error item (if one was sent) has been consumed,
the output receiver has been completed. -/
theorem C49_done_when_quiet {b : Bool} {s : St} (h : Reachable b s) (hb : s.begun = true)
    (hq : ∀ j, s.pc j = .absent ∨ s.pc j = .done ∨ s.pc j = .given) : Completed s := by
  have hi := inv_reach h
  have hw : lsum Pc.w s.pc s.agents = 0 := lsum_eq_zero _ _ fun j _ => by rcases hq j with h | h | h <;> simp [h, Pc.w]
  have hf : lsum Pc.f s.pc s.agents = 0 := lsum_eq_zero _ _ fun j _ => by rcases hq j with h | h | h <;> simp [h, Pc.f]
  have hact : s.active = 0 := by rw [hi.act, hw]
  have := hi.fin
  rw [hf, if_pos ⟨hb, hact⟩] at this
  exact completed_terms.2 (by omega)

/-- The sequence of sequences is free to complete once its items have finished - provided that no sender of a nested
sequence completed with an error or with stopped (and no subscription threw).  Missing: that proviso, see
`C49_lost_never_completes`. -/
theorem C49_outer_can_complete_partial {b : Bool} {s : St} (h : Reachable b s) (h0 : s.pc 0 = .live) (hl : s.lost = [])
    (hq : ∀ j, j ≠ 0 → s.pc j = .absent ∨ s.pc j = .done ∨ (s.pc j = .given ∧ s.acked j = true))
    (hn : ∀ j, s.noted j = true → s.acked j = true) (sig : Sig) : ∃ s', step s (.complete 0 sig) = some s' := by
  have hi := inv_reach h
  have hk : s.kind 0 = .outer := (hi.kn 0 (hi.mem (by simp [h0]))).2 rfl
  have hd : itemsDone s 0 = true := by
    rw [itemsDone_iff]
    intro j hj hj0
    have : s.acked j = true := by
      cases ha : s.acked j
      · rcases hi.owe j hj hj0 ha with h' | h' | h'
        · rcases hq j hj0 with hp | hp | hp
          · exact absurd hp ((hi.ag j).1 hj)
          · simp [hp, Pc.owes] at h'
          · rw [hp.2] at ha; cases ha
        · rw [hn j h'] at ha; cases ha
        · rw [hl] at h'; cases h'
      · rfl
    exact ⟨fun _ _ => this, fun _ => this⟩
  simp only [step, stepComplete, h0, hk, hd, if_true]
  exact ⟨_, rfl⟩

/-- The hypotheses are met: a nested sequence with one value has run to its end. -/
example : ∃ s, Reachable true s ∧ (s.pc 0 = .live ∧ s.lost = [] ∧ s.pc 1 = .done ∧ s.pc 2 = .done ∧ s.acked 1 = true) := by
  obtain ⟨s, h1, h2⟩ := Reach.witness (init := init true) (step := step)
    [.start, .nextSeq 1, .begin 1, .complete 1 .value, .nextVal 1 2, .begin 2, .complete 2 .value, .op 2, .ack 2, .op 2,
      .complete 1 .value, .op 1, .op 1]
    (fun s : St => decide (s.pc 0 = .live) && decide (s.lost = []) && decide (s.pc 1 = .done) && decide (s.pc 2 = .done)
      && s.acked 1) (by rfl)
  exact ⟨s, h1, by simpa [and_assoc] using h2⟩

/-- If the sender of a nested sequence completes with set_error or set_stopped, or subscribing to the nested sequence
throws, the producer of the sequences is never told that the item has completed, so it never completes, and
merge_each never completes: its receiver is left hanging in every continuation. -/
theorem C49_lost_never_completes {b : Bool} {s : St} (h : Reachable b s) (hl : s.lost ≠ []) : ¬ Completed s := by
  intro hc
  have hi := inv_reach h
  have h2 := inv2_reach h
  obtain ⟨h0, _⟩ := completed_active hi hc
  cases hl' : s.lost with
  | nil => exact hl hl'
  | cons j l =>
    obtain ⟨hk, ha, _, hp⟩ := h2.lo j (by simp [hl'])
    exact live_active hi ((hi.own j (hi.mem hp) ha).1 hk) h0

/-- The children lost stay lost. -/
theorem lost_mono {s s' : St} {a : Act} (hs : step s a = some s') (h : s.lost ≠ []) : s'.lost ≠ [] := by
  cases a <;> simp only [step, stepStart, stepNextSeq, stepNextVal, stepBegin, stepAck, stepDestroy, stepComplete, stepOp,
      stepOpThrow, stepErrAck, stepExtStop] at hs <;> (repeat' split at hs) <;> cases hs <;> first | exact h | simp

/-- The hang is reachable: one nested sequence whose sender completes with set_stopped; no continuation whatsoever
completes the receiver. -/
theorem C49_hang : ∃ s, Reachable true s ∧ s.pc 1 = .done ∧ s.pc 0 = .live ∧
    ∀ as s', exec step s as = some s' → ¬ Completed s' := by
  obtain ⟨s, h1, h2⟩ := Reach.witness (init := init true) (step := step)
    [.start, .nextSeq 1, .begin 1, .complete 1 .stopped, .op 1]
    (fun s : St => decide (s.pc 1 = .done) && decide (s.pc 0 = .live) && decide (s.lost = [1]))
    (by rfl)
  simp only [Bool.and_eq_true, decide_eq_true_eq] at h2
  refine ⟨s, h1, h2.1.1, h2.1.2, ?_⟩
  have hl : s.lost ≠ [] := by simp [h2.2]
  have h1' : Reachable true s := h1
  clear h2 h1
  intro as
  induction as generalizing s with
  | nil => intro s' he; cases he; exact C49_lost_never_completes h1' hl
  | cons a as ih =>
    intro s' he
    rw [exec] at he
    split at he
    · rename_i s1 hs
      exact ih s1 (lost_mono hs hl) (Reach.tail a h1' hs) s' he
    · cases he

/-! ### Lifetime of error objects -/

/-- An error object is read after the operation state that may hold it was destroyed only when it comes from a nested
*value* sender.  Missing: the same for value senders, which is false, see `C49_error_dangles`. -/
theorem C49_error_alive_partial {b : Bool} {s : St} (h : Reachable b s)
    (hv : ∀ j e o, (j, e) ∈ s.reports → s.kind j ≠ .val o) : s.dangling = false := by
  cases hd : s.dangling
  · rfl
  · obtain ⟨j, e, o, h1, h2, _⟩ := (inv2_reach h).dg hd
    exact absurd h2 (hv j e o h1)

/-- `__receive_nested_value::set_error` completes the item's receiver with set_stopped before it copies the error: the
consumer completes the producer's next-receiver, the producer destroys the item's operation state, and then the error,
which that operation state owns, is read. -/
theorem C49_error_dangles : ∃ s, Reachable true s ∧ s.dangling = true ∧ s.reports = [(2, 7)] := by
  obtain ⟨s, h1, h2⟩ := Reach.witness (init := init true) (step := step)
    [.start, .nextSeq 1, .begin 1, .complete 1 .value, .nextVal 1 2, .begin 2, .complete 2 (.error 7), .op 2,
      .ack 2, .destroy 2, .op 2, .op 2, .op 2]
    (fun s : St => s.dangling && decide (s.reports = [(2, 7)]))
    (by rfl)
  exact ⟨s, h1, by simpa using h2⟩

end Verif.MergeEach
