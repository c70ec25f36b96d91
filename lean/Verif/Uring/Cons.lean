import Verif.Uring.Progress
namespace Verif.Uring
set_option maxHeartbeats 4000000

/-! ## Consequences of the invariants -/

theorem length_bound (p : Nat → Bool) : ∀ (n : Nat) (l : List T), (∀ i, l.count (.op i) ≤ 1) →
    (∀ i, T.op i ∈ l → i < n ∧ p i = true) → l.length ≤ l.count .wake + cnt p n := by
  intro n
  induction n with
  | zero =>
    intro l _ h
    have : l.length = l.count .wake := by
      symm; rw [List.count_eq_length]
      intro t ht
      cases t with
      | wake => rfl
      | op i => exact absurd (h i ht).1 (by omega)
    omega
  | succ n ih =>
    intro l h1 h2
    have hlen : l.length = (l.filter (fun t => decide (t ≠ T.op n))).length + l.count (.op n) := by
      rw [List.count, List.length_eq_countP_add_countP (fun t => t == T.op n), List.countP_eq_length_filter,
        ← List.countP_eq_length_filter, ← List.countP_eq_length_filter, Nat.add_comm]
      congr 1
      refine List.countP_congr fun t _ => ?_
      simp
    have hw : (l.filter (fun t => decide (t ≠ T.op n))).count .wake = l.count .wake := by
      rw [List.count_filter]; simp
    have := ih (l.filter (fun t => decide (t ≠ T.op n)))
      (fun i => Nat.le_trans (List.Sublist.count_le _ List.filter_sublist) (h1 i))
      (fun i hi => by
        simp only [List.mem_filter] at hi
        have := h2 i hi.1
        have hne : i ≠ n := fun e => by subst e; simp at hi
        exact ⟨by omega, this.2⟩)
    have hc := h1 n
    simp only [cnt]
    by_cases hm : T.op n ∈ l
    · have := (h2 n hm).2
      simp only [this, if_true]; omega
    · have : l.count (.op n) = 0 := List.count_eq_zero.2 hm
      omega

theorem accepted_le (o : OPc) : accepted o ≤ 1 := by cases o <;> simp [accepted]

theorem op_lt {s : St} (h : InvO s) {i : Nat} (hc : 0 < cI s i) : i < s.n := by
  rcases Nat.lt_or_ge i s.n with hl | hl
  · exact hl
  · have h1 := h.ops i
    rw [h.idle0 i hl] at h1
    simp only [accepted] at h1; omega

theorem ring_bound {s : St} (h : InvD s) :
    s.total + s.nsub ≤ cW s + cnt (fun i => decide (s.kind i ≠ .ready)) s.n := by
  have hb := length_bound (fun i => decide (s.kind i ≠ .ready)) s.n (s.sq ++ s.ring ++ s.cq)
    (fun i => by
      have h1 := h.o.ops i
      have := accepted_le (s.opc i)
      simp only [cI] at h1
      simp only [List.count_append]; omega)
    (fun i hi => by
      have hcount : 0 < cI s i := by
        have := List.count_pos_iff.2 hi
        simp only [List.count_append] at this
        simp only [cI]; omega
      refine ⟨op_lt h.o hcount, ?_⟩
      have hr : isReady s (.op i) = false := by
        rcases List.mem_append.1 hi with hi | hi
        · rcases List.mem_append.1 hi with hi | hi
          · exact h.o.ksq _ hi
          · exact h.o.kring _ hi
        · exact h.o.kcq _ hi
      simpa [isReady] using hr)
  have := h.len
  simp only [List.length_append, List.count_append] at hb
  simp only [cW]; omega

/-- With few enough I/O operations, nothing is left pending when the driving thread waits. -/
theorem few_pend {s : St} (h : InvD s) (hf : cnt (fun i => decide (s.kind i ≠ .ready)) s.n + 1 < s.slots)
    (hp : s.pc = .chk ∨ s.pc = .enter ∨ s.pc = .wait) : s.pend = [] := by
  by_cases hq : s.pend = []
  · exact hq
  · have h1 := h.pend2 hp hq
    have h2 := ring_bound h
    have h3 := h.cw
    omega

/-- What it means that no internal step is possible while the context is driven. -/
theorem stuck_wait {s : St} (h : InvD s) (hs : ∀ a, internal a = true → step s a = none) (hp : s.pc ≠ .idle) :
    s.pc = .wait ∧ s.cq = [] := by
  have hd := hs .drv rfl
  simp only [step] at hd
  cases hpc : s.pc with
  | idle => exact absurd hpc hp
  | wait =>
    refine ⟨rfl, ?_⟩
    simp only [drv, hpc] at hd
    split at hd
    · assumption
    · cases hd
  | enter =>
    exfalso
    have := hs (.enter s.sq.length) rfl
    simp only [step, hpc] at this
    split at this
    · cases this
    · rename_i hn
      refine hn ⟨by trivial, Nat.le_refl _, ?_⟩
      rcases hq : s.sq with _ | _ <;> simp
  | cls =>
    exfalso
    simp only [drv, hpc] at hd
    split at hd
    · cases hd
    · rename_i hn
      rw [h.infl] at hn
      have : ∃ i, i < s.n ∧ inFlight (s.opc i) = true := by
        apply Classical.byContradiction
        intro hne
        refine hn (cnt_zero_iff.2 fun i hi => ?_)
        cases hx : inFlight (s.opc i) with
        | false => rfl
        | true => exact absurd ⟨i, hi, hx⟩ hne
      obtain ⟨i, hi, hx⟩ := this
      cases ho : s.opc i with
      | acc => have := hs (.push i) rfl; simp [step, hi, ho] at this
      | pushed => have := hs (.dec i) rfl; simp [step, hi, ho] at this
      | _ => simp [ho, inFlight] at hx
  | _ =>
    exfalso
    simp only [drv, hpc] at hd
    repeat' (split at hd)
    all_goals cases hd

theorem stuck_threads {s : St} (h : InvO s) (hs : ∀ a, internal a = true → step s a = none) (i : Nat) :
    s.opc i = .idle ∨ s.opc i = .ret := by
  rcases Nat.lt_or_ge i s.n with hi | hi
  · cases ho : s.opc i with
    | acc => have := hs (.push i) rfl; simp [step, hi, ho] at this
    | pushed => have := hs (.dec i) rfl; simp [step, hi, ho] at this
    | wk => have := hs (.wakeOp i) rfl; simp [step, hi, ho] at this
    | idle => simp
    | ret => simp
  · exact Or.inl (h.idle0 i hi)

theorem stuck_ring {s : St} (hs : ∀ a, internal a = true → step s a = none) (i : Nat) : T.op i ∉ s.ring := by
  intro hm
  have := hs (.kop i) rfl
  simp [step, hm] at this

theorem stuck_wake {s : St} (hs : ∀ a, internal a = true → step s a = none) (hm : T.wake ∈ s.ring) : s.efd = false := by
  have := hs .kwake rfl
  rcases he : s.efd with _ | _
  · rfl
  · simp [step, hm, he] at this

theorem stuck_owe {s : St} (hs : ∀ a, internal a = true → step s a = none) : s.oweS = 0 ∧ s.oweF = 0 := by
  have h1 := hs .wakeStop rfl
  have h2 := hs .wakeFin rfl
  simp only [step] at h1 h2
  constructor
  · rcases Nat.eq_zero_or_pos s.oweS with h | h
    · exact h
    · simp [h] at h1
  · rcases Nat.eq_zero_or_pos s.oweF with h | h
    · exact h
    · simp [h] at h2

theorem returned_done {s : St} (h : InvD s) (hp : s.pc = .idle) (hf : s.fresh = false) (hb : s.everBrk = false) :
    s.closed = true ∧ ∀ i, s.opc i ≠ .idle → s.done i = 1 := by
  have hcl := h.ret (Or.inr ⟨hp, hf⟩) hb
  refine ⟨hcl, fun i hi => ?_⟩
  have h0 := (h.exi (by rw [hp]; rfl)).2 hb
  have hl := h.loc (by rw [hp]; rfl)
  have htk := h.o.tk (by rw [hp]; rfl)
  have hr := h.rdy (by rw [hp]; rfl)
  have hpn := h.pend1 (by rw [hp]; rfl)
  have hlen := h.len
  have hsq : s.sq = [] := List.eq_nil_of_length_eq_zero (by omega)
  have hrg : s.ring = [] := List.eq_nil_of_length_eq_zero (by omega)
  have hcq : s.cq = [] := List.eq_nil_of_length_eq_zero (by omega)
  have hrq := h.finq hcl (by simp [hp])
  have hops := h.o.ops i
  simp only [cI, hsq, hrg, hcq, hrq, hr, hpn, htk.1, htk.2, h.lost, List.count_nil] at hops
  have hin := (h.cls hcl).1
  rw [h.infl] at hin
  have hlt : i < s.n := by
    rcases Nat.lt_or_ge i s.n with hl | hl
    · exact hl
    · exact absurd (h.o.idle0 i hl) hi
  have := cnt_zero_iff.1 hin i hlt
  cases ho : s.opc i with
  | idle => exact absurd ho hi
  | acc => simp [ho, inFlight] at this
  | _ => simp only [ho, accepted] at hops; omega

/-! ## From executions to the invariants -/

section
variable {n : Nat} {kind : Nat → Kind} {cap slots : Nat}

theorem reach_O {s : St} (h : Reach (init n kind cap slots) step s) : InvO s :=
  Reach.inv InvO (invO_init _ _ _ _) (fun _ _ _ hi he => invO_step hi he) s h

theorem reach_C {s : St} (h : Reach (init n kind cap slots) step s) : sameC (init n kind cap slots) s :=
  Reach.inv (sameC (init n kind cap slots)) (sameC_refl _) (fun _ _ _ hi he => sameC_trans hi (sameC_step he)) s h

theorem reach_weak {s : St} (h : Reach (init n kind cap slots) stepD s) : Reach (init n kind cap slots) step s := by
  induction h with
  | refl => exact .refl
  | tail a _ he ih => exact .tail a ih (stepD_step he)

/-- The cases in which the final `submit` is known to submit nothing. -/
theorem reach_D {s : St} (hq : 2 ≤ slots) (hc : slots ≤ cap) (h : Reach (init n kind cap slots) stepD s)
    (hk : (∀ i, kind i ≠ .cancel) ∨ s.everStop = false) : InvD s ∧ (final s.pc = true → s.nsub = 0) := by
  have key : ∀ t, Reach (init n kind cap slots) stepD t → t.leak = 0 → InvD t := by
    intro t ht
    refine Reach.inv (fun u => u.leak = 0 → InvD u) (fun _ => invD_init hq hc) ?_ t ht
    intro u a u' hi he hl
    have := leak_le (stepD_step he)
    exact invD_step (hi (by omega)) he hl
  rcases hk with hk | hk
  · have : InvL s ∧ s.kind = kind := by
      refine Reach.inv (fun u => InvL u ∧ u.kind = kind)
        ⟨⟨invD_init hq hc, rfl, fun hf => by simp [init, final] at hf⟩, rfl⟩ ?_ s h
      rintro u a u' ⟨hi, hu⟩ he
      exact ⟨invL_step (hu ▸ hk) hi he, (sameC_step (stepD_step he)).2.1.trans hu⟩
    obtain ⟨⟨h1, h2, h3⟩, -⟩ := this
    refine ⟨h1, fun hf => ?_⟩
    rcases hi : inSub s.pc with _ | _
    · exact (h1.loc hi).1
    · exact h3 hf hi
  · have hz : ∀ t, Reach (init n kind cap slots) step t → t.leak = 0 ∨ t.everStop = true := by
      intro t ht
      refine Reach.inv' (fun u => u.leak = 0 ∨ u.everStop = true) (Or.inl rfl) ?_ t ht
      intro u a u' hr hi he
      have ho := reach_O hr
      have hmono := ever_step he
      rcases leak_step he with hl | ⟨hp, -⟩
      · rw [hl]; rcases hi with hi | hi
        · exact Or.inl hi
        · exact Or.inr (hmono hi)
      · exact Or.inr (hmono (ho.fin (Or.inr (by rw [hp]; rfl))))
    rcases hz s (reach_weak h) with hz | hz
    · refine ⟨key s h hz, fun hf => ?_⟩
      have := (key s h hz).o.fin (Or.inr hf)
      rw [hk] at this; cases this
    · rw [hk] at hz; cases hz
end

end Verif.Uring
