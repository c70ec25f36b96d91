import Verif.AtomicQueue.Props
import Verif.Run
/-! # `__atomic_intrusive_queue` — C11, progress

`pop_all` and the walk over its result are wait-free: the number of steps the consumer needs is fixed
when it exchanges the head, whatever the producers and other consumers do meanwhile. A `push` that runs
alone finishes; a compare-exchange fails only if another operation took effect since the load (or
spuriously).
-/
namespace Verif.AtomicQueue

/-- Call `i` needs exactly `k` more steps of its own. -/
def Needs (s : St) (i k : Nat) : Prop :=
  match s.cons i with
  | .none => False
  | .rev cur prev => ∃ l1 l2, Chain s.next cur l1 ∧ Chain s.next prev l2 ∧
      (l1.Nodup ∧ l2.Nodup) ∧ (∀ n ∈ l1, n ∉ l2) ∧ (∀ n ∈ l1 ++ l2, s.owner n = .cons i) ∧ k = 2 * l1.length + l2.length + 2
  | .walk cur _ => ∃ l, Chain s.next cur l ∧ l.Nodup ∧ (∀ n ∈ l, s.owner n = .cons i) ∧ k = l.length + 1
  | .done _ => k = 0

theorem needs_exists {s : St} (h : Reachable s) {i : Nat} (hi : i < s.pops) : ∃ k, Needs s i k := by
  obtain ⟨q, bs, h⟩ := inv_reach h
  have hc := h.conss i
  unfold Needs
  cases hp : s.cons i with
  | none => rw [hp] at hc; simp only [ConsOk] at hc; omega
  | rev cur prev =>
      rw [hp] at hc
      obtain ⟨h0, h1, l1, l2, h2, h3, h4, h5, h6⟩ := hc
      have hn := h5; rw [← h4, List.nodup_append] at hn
      refine ⟨_, l1, l2, h2, h3, ⟨List.nodup_reverse.1 hn.1, hn.2.1⟩, ?_, ?_, rfl⟩
      · intro n hn1 hn2; exact hn.2.2 n (by simpa using hn1) n hn2 rfl
      · intro n hm; exact h6 n (by rw [← h4]; simpa using hm)
  | walk cur acc =>
      rw [hp] at hc
      obtain ⟨h0, l, h1, h2, h3, h4⟩ := hc
      exact ⟨_, l, h1, h3, h4, rfl⟩
  | done acc => exact ⟨0, rfl⟩

theorem Needs.frame {s s' : St} {i k : Nat} (h : Needs s i k)
    (hn : ∀ n, s.owner n = .cons i → s'.next n = s.next n ∧ s'.owner n = .cons i)
    (hc : s'.cons i = s.cons i) : Needs s' i k := by
  unfold Needs at *
  rw [hc]
  cases hp : s.cons i with
  | none => rw [hp] at h; exact h
  | rev cur prev =>
      rw [hp] at h
      obtain ⟨l1, l2, h1, h2, h3, h4, h5, h6⟩ := h
      refine ⟨l1, l2, h1.frame ?_, h2.frame ?_, h3, h4, fun n hm => (hn n (h5 n hm)).2, h6⟩
      · intro n hm; exact (hn n (h5 n (by simp [hm]))).1
      · intro n hm; exact (hn n (h5 n (by simp [hm]))).1
  | walk cur acc =>
      rw [hp] at h
      obtain ⟨l, h1, h2, h3, h4⟩ := h
      exact ⟨l, h1.frame fun n hm => (hn n (h3 n hm)).1, h2, fun n hm => (hn n (h3 n hm)).2, h4⟩
  | done acc => rw [hp] at h; exact h

/-- Nobody else touches the nodes of a consumer. -/
theorem others_frame {s s' : St} {a : Act} {i : Nat} (h : Reachable s) (hs : step s a = some s')
    (ha : a ≠ .cons i) (hi : i < s.pops) :
    (∀ n, s.owner n = .cons i → s'.next n = s.next n ∧ s'.owner n = .cons i) ∧ s'.cons i = s.cons i := by
  obtain ⟨q, bs, h⟩ := inv_reach h
  cases a with
  | call t seg once =>
      simp only [step] at hs; split at hs <;> simp at hs
      rename_i hg
      subst hs
      refine ⟨fun n hn => ?_, rfl⟩
      have hns : n ∉ seg := fun hm => by have := hg.2.2.2 n hm; rw [hn] at this; cases this
      exact ⟨link_other hns, by simp [give_out hns, hn]⟩
  | load t =>
      simp only [step] at hs; split at hs <;> simp at hs
      subst hs; exact ⟨fun n hn => ⟨rfl, hn⟩, rfl⟩
  | store t =>
      simp only [step] at hs; split at hs <;> simp at hs
      rename_i seg once old hp
      subst hs
      have hpo := h.prods t; rw [hp] at hpo
      refine ⟨fun n hn => ⟨?_, hn⟩, rfl⟩
      dsimp only
      cases hl : seg.getLast? with
      | none => rfl
      | some z =>
          have hz := hpo.2.2.1 z (List.mem_of_getLast? hl)
          have : n ≠ z := by rintro rfl; rw [hn] at hz; cases hz
          simp [upd_other _ _ this]
  | cas t ok =>
      simp only [step] at hs; split at hs
      · rename_i seg once old hp
        have hpo := h.prods t; rw [hp] at hpo
        have hns : ∀ n, s.owner n = .cons i → n ∉ seg := by
          intro n hn hm; have := hpo.1.2.2.1 n hm; rw [hn] at this; cases this
        split at hs
        · split at hs <;> simp at hs
          subst hs
          exact ⟨fun n hn => ⟨rfl, by simp [give_out (hns n hn), hn]⟩, rfl⟩
        · split at hs
          · split at hs <;> simp at hs
            subst hs
            exact ⟨fun n hn => ⟨rfl, by simp [give_out (hns n hn), hn]⟩, rfl⟩
          · simp at hs; subst hs; exact ⟨fun n hn => ⟨rfl, hn⟩, rfl⟩
      · cases hs
  | pop f =>
      simp only [step, Option.some.injEq] at hs
      subst hs
      exact ⟨fun n hn => ⟨rfl, by simp [hn]⟩, upd_other _ _ (by omega)⟩
  | cons j =>
      have hij : i ≠ j := fun e => ha (by rw [e])
      have hcj := h.conss j
      simp only [step] at hs; split at hs
      · rename_i n prev hp
        rw [hp] at hcj
        obtain ⟨_, _, l1, l2, h2, h3, h4, h5, h6⟩ := hcj
        cases l1 with
        | nil => cases h2
        | cons a l1 =>
          have e := h2.1; injection e with e; subst e
          have hon := h6 n (by rw [← h4]; simp)
          simp at hs; subst hs
          refine ⟨fun m hm => ⟨?_, hm⟩, upd_other _ _ hij⟩
          have : m ≠ n := by rintro rfl; rw [hon] at hm; injection hm with hm; exact hij hm.symm
          simp [upd_other _ _ this]
      · simp at hs; subst hs; exact ⟨fun n hn => ⟨rfl, hn⟩, upd_other _ _ hij⟩
      · rename_i n acc hp
        rw [hp] at hcj
        obtain ⟨_, l, h1, h2, h3, h4⟩ := hcj
        cases l with
        | nil => cases h1
        | cons a l =>
          have e := h1.1; injection e with e; subst e
          have hon := h4 n (by simp)
          simp at hs; subst hs
          refine ⟨fun m hm => ⟨rfl, ?_⟩, upd_other _ _ hij⟩
          have : m ≠ n := by rintro rfl; rw [hon] at hm; injection hm with hm; exact hij hm.symm
          simp [upd_other _ _ this, hm]
      · simp at hs; subst hs; exact ⟨fun n hn => ⟨rfl, hn⟩, upd_other _ _ hij⟩
      · cases hs

/-- The consumer's own step uses up one of its steps. -/
theorem needs_own {s s' : St} {i k : Nat} (hn : Needs s i k) (hs : step s (.cons i) = some s') :
    ∃ k', k = k' + 1 ∧ Needs s' i k' := by
  simp only [step] at hs
  unfold Needs at hn
  split at hs
  · rename_i n prev hp
    rw [hp] at hn
    obtain ⟨l1, l2, h1, h2, h3, h4, h5, h6⟩ := hn
    simp at hs; subst hs
    cases l1 with
    | nil => cases h1
    | cons a l1 =>
      have e := h1.1; injection e with e; subst e
      obtain ⟨h3, h3'⟩ := h3
      rw [List.nodup_cons] at h3
      refine ⟨2 * l1.length + (n :: l2).length + 2, by simp at h6 ⊢; omega, ?_⟩
      unfold Needs
      simp only [upd_same]
      refine ⟨l1, n :: l2, h1.2.frame ?_, ⟨rfl, ?_⟩, ⟨h3.2, ?_⟩, ?_, ?_, rfl⟩
      · intro m hm
        exact upd_other _ _ (by rintro rfl; exact h3.1 hm)
      · rw [upd_same]
        exact h2.frame fun m hm => upd_other _ _ (by rintro rfl; exact h4 m (by simp) hm)
      · exact List.nodup_cons.2 ⟨h4 n (by simp), h3'⟩
      · intro m hm hm2
        rcases List.mem_cons.1 hm2 with rfl | hm2
        · exact h3.1 hm
        · exact h4 m (by simp [hm]) hm2
      · intro m hm; apply h5; simp at hm ⊢; rcases hm with hm | hm | hm <;> simp [hm]
  · rename_i prev hp
    rw [hp] at hn
    obtain ⟨l1, l2, h1, h2, h3, h4, h5, h6⟩ := hn
    simp at hs; subst hs
    cases l1 with
    | cons a l1 => exact absurd h1.1 (by simp)
    | nil =>
      refine ⟨l2.length + 1, by simp at h6; omega, ?_⟩
      unfold Needs
      simp only [upd_same]
      exact ⟨l2, h2, h3.2, fun n hm => h5 n (by simp [hm]), rfl⟩
  · rename_i n acc hp
    rw [hp] at hn
    obtain ⟨l, h1, h2, h3, h4⟩ := hn
    simp at hs; subst hs
    cases l with
    | nil => cases h1
    | cons a l =>
      have e := h1.1; injection e with e; subst e
      rw [List.nodup_cons] at h2
      refine ⟨l.length + 1, by simp at h4; omega, ?_⟩
      unfold Needs
      simp only [upd_same]
      refine ⟨l, h1.2, h2.2, fun m hm => ?_, rfl⟩
      rw [upd_other _ _ (by rintro rfl; exact h2.1 hm)]
      exact h3 m (by simp [hm])
  · rename_i acc hp
    rw [hp] at hn
    obtain ⟨l, h1, h2, h3, h4⟩ := hn
    simp at hs; subst hs
    cases l with
    | cons a l => exact absurd h1.1 (by simp)
    | nil => exact ⟨0, h4, by unfold Needs; simp⟩
  · cases hs

/-- Number of steps of the caller of `pop_all` number `i` in a run. -/
def ownSteps (i : Nat) : List Act → Nat
  | [] => 0
  | .cons j :: l => (if j = i then 1 else 0) + ownSteps i l
  | _ :: l => ownSteps i l

theorem pops_mono {s s' : St} {a : Act} (hs : step s a = some s') : s.pops ≤ s'.pops := by
  cases a <;> simp only [step] at hs <;> (repeat' split at hs) <;> simp at hs <;> subst hs <;> simp

theorem needs_run : ∀ (acts : List Act) (s s' : St) (i k : Nat), Reachable s → i < s.pops → Needs s i k →
    exec step s acts = some s' → ∃ k', k = k' + ownSteps i acts ∧ Needs s' i k'
  | [], s, s', i, k, _, _, hn, he => by
      simp [exec] at he; subst he; exact ⟨k, by simp [ownSteps], hn⟩
  | a :: as, s, s', i, k, hr, hi, hn, he => by
      simp only [exec] at he
      split at he
      · rename_i s1 h1
        have hi1 : i < s1.pops := Nat.lt_of_lt_of_le hi (pops_mono h1)
        by_cases ha : a = .cons i
        · subst ha
          obtain ⟨k1, rfl, hn1⟩ := needs_own hn h1
          obtain ⟨k', rfl, h2⟩ := needs_run as s1 s' i k1 (.tail _ hr h1) hi1 hn1 he
          exact ⟨k', by simp [ownSteps]; omega, h2⟩
        · obtain ⟨hf, hc⟩ := others_frame hr h1 ha hi
          obtain ⟨k', hk', h2⟩ := needs_run as s1 s' i k (.tail _ hr h1) hi1 (hn.frame hf hc) he
          refine ⟨k', ?_, h2⟩
          have : ownSteps i (a :: as) = ownSteps i as := by
            cases a <;> simp [ownSteps]
            rintro rfl; exact absurd rfl ha
          omega
      · cases he

/-- **C11** (wait-free consumption). When `pop_all` call `i` has exchanged the head, the number `k` of
steps its caller still has to make to walk over the whole batch is fixed: in every continuation, with any
pushes, pops and node reuse by others, it makes at most `k` steps, and it has the whole batch exactly when
it has made `k` of them. -/
theorem C11_pop_wait_free (s : St) (h : Reachable s) (i : Nat) (hi : i < s.pops) :
    ∃ k, ∀ (acts : List Act) (s' : St), exec step s acts = some s' →
      ownSteps i acts ≤ k ∧ (ownSteps i acts = k ↔ ∃ acc, s'.cons i = .done acc) := by
  obtain ⟨k, hk⟩ := needs_exists h hi
  refine ⟨k, fun acts s' he => ?_⟩
  obtain ⟨k', rfl, h2⟩ := needs_run acts s s' i k h hi hk he
  refine ⟨by omega, ?_⟩
  have hz : k' = 0 ↔ ∃ acc, s'.cons i = .done acc := by
    unfold Needs at h2
    cases hp : s'.cons i with
    | none => rw [hp] at h2; exact h2.elim
    | rev c p => rw [hp] at h2; obtain ⟨_, _, _, _, _, _, _, h2⟩ := h2; simp; omega
    | walk c p => rw [hp] at h2; obtain ⟨_, _, _, _, h2⟩ := h2; simp; omega
    | done acc => rw [hp] at h2; simp [h2]
  rw [← hz]; omega

/-- The consumer is never blocked. -/
theorem C11_pop_never_blocks (s : St) (h : Reachable s) (i : Nat) (hi : i < s.pops)
    (hd : ∀ acc, s.cons i ≠ .done acc) : ∃ s', step s (.cons i) = some s' := by
  obtain ⟨k, hk⟩ := needs_exists h hi
  unfold Needs at hk
  cases hp : s.cons i with
  | none => rw [hp] at hk; exact hk.elim
  | rev c p => cases c <;> simp [step, hp]
  | walk c p => cases c <;> simp [step, hp]
  | done acc => exact absurd hp (hd acc)

/-- **C11** (a push that runs alone finishes). From every reachable state, a `push`, `try_push_front` or
`prepend` in progress finishes by its own thread's steps alone, at most five of them; except for
`try_push_front` it has then succeeded and its nodes are in the queue. -/
theorem C11_push_alone (s : St) (t : Nat) (seg : List Nat) (once : Bool)
    (hp : s.prod t = .load seg once ∨ ∃ old, s.prod t = .store seg once old ∨ s.prod t = .cas seg once old) :
    ∃ acts s', acts.length ≤ 5 ∧ (∀ a ∈ acts, a = .load t ∨ a = .store t ∨ ∃ b, a = .cas t b) ∧
      exec step s acts = some s' ∧ s'.prod t = .idle ∧
      ((s'.effect = s.effect ++ seg.reverse ∧ ∃ b, s'.rets = s.rets ++ [(t, true, b)]) ∨
       (once = true ∧ s'.effect = s.effect ∧ ∃ b, s'.rets = s.rets ++ [(t, false, b)])) := by
  have cas1 : ∀ s : St, s.prod t = .cas seg once s.head → ∃ s', step s (.cas t true) = some s' ∧
      s'.prod t = .idle ∧ s'.effect = s.effect ++ seg.reverse ∧ ∃ b, s'.rets = s.rets ++ [(t, true, b)] := by
    intro s hs; simp only [step, hs, ↓reduceIte]; exact ⟨_, rfl, by simp, rfl, _, rfl⟩
  have store1 : ∀ s : St, ∀ old, s.prod t = .store seg once old → ∃ s', step s (.store t) = some s' ∧
      s'.prod t = .cas seg once old ∧ s'.effect = s.effect ∧ s'.rets = s.rets ∧ s'.head = s.head := by
    intro s old hs; simp only [step, hs]; exact ⟨_, rfl, by simp, rfl, rfl, rfl⟩
  have casAny : ∀ s : St, ∀ old, s.prod t = .cas seg once old →
      ∃ acts s', acts.length ≤ 3 ∧ (∀ a ∈ acts, a = .load t ∨ a = .store t ∨ ∃ b, a = .cas t b) ∧
      exec step s acts = some s' ∧ s'.prod t = .idle ∧
      ((s'.effect = s.effect ++ seg.reverse ∧ ∃ b, s'.rets = s.rets ++ [(t, true, b)]) ∨
       (once = true ∧ s'.effect = s.effect ∧ ∃ b, s'.rets = s.rets ++ [(t, false, b)])) := by
    intro s old hs
    by_cases hh : s.head = old
    · subst hh
      obtain ⟨s', h1, h2, h3, h4⟩ := cas1 s hs
      exact ⟨[.cas t true], s', by simp, by simp, by simp [exec, h1], h2, .inl ⟨h3, h4⟩⟩
    · cases once with
      | true =>
        refine ⟨[.cas t false], { s with prod := upd s.prod t .idle, owner := give s.owner seg .free
                                         rets := s.rets ++ [(t, false, s.head == none)] },
          by simp, by simp, ?_, by simp, .inr ⟨rfl, rfl, _, rfl⟩⟩
        simp [exec, step, hs, hh]
      | false =>
        let s1 : St := { s with prod := upd s.prod t (.store seg false s.head) }
        have e1 : step s (.cas t false) = some s1 := by simp [step, hs, s1]
        obtain ⟨s2, e2, p2, f2, r2, d2⟩ := store1 s1 s.head (by simp [s1])
        obtain ⟨s3, e3, p3, f3, b, r3⟩ := cas1 s2 (by rw [p2, d2])
        refine ⟨[.cas t false, .store t, .cas t true], s3, by simp, by simp, ?_, p3, .inl ⟨?_, b, ?_⟩⟩
        · simp [exec, e1, e2, e3]
        · rw [f3, f2]
        · rw [r3, r2]
  have storeAny : ∀ s : St, ∀ old, s.prod t = .store seg once old →
      ∃ acts s', acts.length ≤ 4 ∧ (∀ a ∈ acts, a = .load t ∨ a = .store t ∨ ∃ b, a = .cas t b) ∧
      exec step s acts = some s' ∧ s'.prod t = .idle ∧
      ((s'.effect = s.effect ++ seg.reverse ∧ ∃ b, s'.rets = s.rets ++ [(t, true, b)]) ∨
       (once = true ∧ s'.effect = s.effect ∧ ∃ b, s'.rets = s.rets ++ [(t, false, b)])) := by
    intro s old hs
    obtain ⟨s1, e1, p1, f1, r1, _⟩ := store1 s old hs
    obtain ⟨acts, s', h1, h2, h3, h4, h5⟩ := casAny s1 old p1
    refine ⟨.store t :: acts, s', by simp; omega, ?_, by simp [exec, e1, h3], h4, by rw [f1, r1] at h5; exact h5⟩
    intro a ha
    rcases List.mem_cons.1 ha with rfl | ha
    · simp
    · exact h2 a ha
  rcases hp with hp | ⟨old, hp | hp⟩
  · let s1 : St := { s with prod := upd s.prod t (.store seg once s.head) }
    have e1 : step s (.load t) = some s1 := by simp [step, hp, s1]
    obtain ⟨acts, s', h1, h2, h3, h4, h5⟩ := storeAny s1 s.head (by simp [s1])
    refine ⟨.load t :: acts, s', by simp; omega, ?_, by simp [exec, e1, h3], h4, h5⟩
    intro a ha
    rcases List.mem_cons.1 ha with rfl | ha
    · simp
    · exact h2 a ha
  · obtain ⟨acts, s', h1, h2, h3⟩ := storeAny s old hp
    exact ⟨acts, s', by omega, h2, h3⟩
  · obtain ⟨acts, s', h1, h2, h3⟩ := casAny s old hp
    exact ⟨acts, s', by omega, h2, h3⟩

/-- A consumer in the middle of reversing two nodes while a push is in progress. -/
example : ∃ s, Reachable s ∧ (s.cons 0 == .rev (some 7) (some 8) && s.pops == 1 &&
    s.prod 0 == .cas [9] false none) = true :=
  Reach.witness [.call 0 [7] false, .load 0, .store 0, .cas 0 true, .call 0 [8] false, .load 0, .store 0,
    .cas 0 true, .pop true, .cons 0, .call 0 [9] false, .load 0, .store 0] _ (by decide)

end Verif.AtomicQueue
