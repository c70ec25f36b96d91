import Verif.NvStreams.Model
/-!
# The stream pools: property C87
-/
namespace Verif.NvStreams

/-- The streams of a pool, without null handles. -/
def nz (l : List Nat) : List Nat := l.filter (· != 0)

theorem nz_cons (x : Nat) (l : List Nat) : nz (x :: l) = if x = 0 then nz l else x :: nz l := by
  by_cases h : x = 0 <;> simp [nz, h]

theorem mem_nz {x : Nat} {l : List Nat} : x ∈ nz l ↔ x ∈ l ∧ x ≠ 0 := by simp [nz]

structure Inv (prio : Nat → Fin 3) (s : St) : Prop where
  nodup : ∀ i, (nz (s.pool i)).Nodup
  pooled : ∀ i x, x ∈ nz (s.pool i) → s.loc x = .pooled ∧ s.sprio x = i ∧ i < 3
  inpool : ∀ x, s.loc x = .pooled → x ∈ nz (s.pool (s.sprio x)) ∧ s.sprio x < 3
  lent : ∀ p, s.pc p = .alive → s.own p ≠ 0 → s.loc (s.own p) = .lent p ∧ s.sprio (s.own p) = (prio p).val
  lentTo : ∀ x p, s.loc x = .lent p → s.pc p = .alive ∧ s.own p = x ∧ x ≠ 0
  known : ∀ x, s.loc x ≠ .none ↔ 0 < x ∧ x ≤ s.made
  dest : s.down = false → ∀ x, s.loc x ≠ .destroyed
  alive : ∀ p, p ∈ s.alive ↔ s.pc p = .alive
  aliveNd : s.alive.Nodup
  killed : s.down = false → s.killed = []
  killed2 : s.down = true → ∀ x, x ≠ 0 → s.killed.count x = if x ≤ s.made then 1 else 0
  downed : s.down = true → s.alive = [] ∧ (∀ i, s.pool i = []) ∧ ∀ x, 0 < x → x ≤ s.made → s.loc x = .destroyed
  nofail : s.failures = 0 → (∀ i, 0 ∉ s.pool i) ∧ ∀ p, s.pc p = .alive → s.own p ≠ 0 ∧ s.ok p = true
  notok : ∀ p, s.pc p = .alive → s.ok p = false → s.own p = 0
  made : s.down = false → ∀ i, s.madeAt i = (nz (s.pool i)).length + lentAt prio s i
  peak : ∀ i, s.madeAt i ≤ s.peakAt i

theorem inv_init (prio) : Inv prio init := by
  constructor <;> simp [init, nz, lentAt]
  intro x h; omega

theorem lentAt_cons {prio : Nat → Fin 3} {s s' : St} {p x : Nat} (hp : p ∉ s.alive) (ha : s'.alive = p :: s.alive)
    (ho : s'.own = upd s.own p x) (i : Nat) :
    lentAt prio s' i = lentAt prio s i + if x ≠ 0 ∧ (prio p).val = i then 1 else 0 := by
  simp only [lentAt, ha, List.countP_cons, ho, upd_same]
  congr 1
  · apply List.countP_congr
    intro q hq
    have : q ≠ p := by rintro rfl; exact hp hq
    simp [upd_other _ _ this]
  · by_cases h : x = 0 <;> by_cases h2 : (prio p).val = i <;> simp [h, h2]

theorem lentAt_erase {prio : Nat → Fin 3} {s s' : St} {p : Nat} (hp : p ∈ s.alive)
    (ha : s'.alive = s.alive.erase p) (ho : s'.own = s.own) (i : Nat) :
    lentAt prio s i = lentAt prio s' i + if s.own p ≠ 0 ∧ (prio p).val = i then 1 else 0 := by
  simp only [lentAt, ha, ho]
  have h1 := (List.perm_cons_erase hp).countP_eq (fun q => s.own q != 0 && (prio q).val == i)
  rw [h1, List.countP_cons]
  by_cases h : s.own p = 0 <;> by_cases h2 : (prio p).val = i <;> simp [h, h2]

theorem nz_nil : nz [] = [] := rfl

set_option maxHeartbeats 2000000 in
theorem inv_borrow {prio : Nat → Fin 3} {s : St} {p : Nat} {fails : Bool} (h : Inv prio s) (hp : s.pc p = .fresh)
    (hd : s.down = false) : Inv prio (borrow prio s p (prio p) fails) := by
  have hpa : p ∉ s.alive := by rw [h.alive, hp]; simp
  have hlt : (prio p).val < 3 := (prio p).isLt
  unfold borrow
  split
  · rename_i he
    split
    · have hl := fun i => lentAt_cons (prio := prio) (s := s) (x := 0)
        (s' := { s with pc := upd s.pc p .alive, alive := p :: s.alive, own := upd s.own p 0, ok := upd s.ok p false
                        failures := s.failures + 1 }) hpa rfl rfl i
      obtain ⟨h1, h2, h3, h4, h5, h6, h7, h8, h9, h10, h11, h12, h13, h14, h15, h16⟩ := h
      constructor <;> (try dsimp only) <;> first | assumption | grind
    · have hl := fun i => lentAt_cons (prio := prio) (s := s) (x := s.made + 1)
        (s' := { s with pc := upd s.pc p .alive, alive := p :: s.alive, own := upd s.own p (s.made + 1), ok := upd s.ok p true
                        made := s.made + 1, sprio := upd s.sprio (s.made + 1) (prio p).val
                        loc := upd s.loc (s.made + 1) (.lent p)
                        madeAt := upd s.madeAt (prio p).val (s.madeAt (prio p).val + 1) }) hpa rfl rfl i
      have hnew : s.loc (s.made + 1) = .none := by
        apply Classical.byContradiction
        intro hc
        have := (h.known (s.made + 1)).1 hc
        omega
      have hmk := h.made hd (prio p).val
      rw [he, nz_nil, List.length_nil] at hmk
      obtain ⟨h1, h2, h3, h4, h5, h6, h7, h8, h9, h10, h11, h12, h13, h14, h15, h16⟩ := h
      simp only [notePeak]
      constructor <;> (try dsimp only) <;> first | assumption | (intro _ i; refine Eq.trans ?_ (congrArg (_ + ·) (hl i).symm); grind; done) | grind
  · rename_i x l he
    have hl := fun i => lentAt_cons (prio := prio) (s := s) (x := x)
      (s' := { s with pc := upd s.pc p .alive, alive := p :: s.alive, own := upd s.own p x, ok := upd s.ok p true
                      pool := upd s.pool (prio p).val l }) hpa rfl rfl i
    split
    · rename_i hx
      subst hx
      have hnz := nz_cons 0 l
      rw [if_pos rfl] at hnz
      obtain ⟨h1, h2, h3, h4, h5, h6, h7, h8, h9, h10, h11, h12, h13, h14, h15, h16⟩ := h
      constructor <;> (try dsimp only) <;> first | assumption | (intro _ i; refine Eq.trans ?_ (congrArg (_ + ·) (hl i).symm); grind; done) | grind
    · rename_i hx
      have hnz := nz_cons x l
      rw [if_neg hx] at hnz
      have hxp := h.pooled (prio p).val x (by rw [he, hnz]; simp)
      obtain ⟨h1, h2, h3, h4, h5, h6, h7, h8, h9, h10, h11, h12, h13, h14, h15, h16⟩ := h
      simp only [notePeak]
      constructor <;> (try dsimp only) <;> first | assumption | (intro _ i; refine Eq.trans ?_ (congrArg (_ + ·) (hl i).symm); grind; done) | grind

set_option maxHeartbeats 2000000 in
theorem inv_drop {prio : Nat → Fin 3} {s : St} {p : Nat} (h : Inv prio s) (hp : s.pc p = .alive) :
    Inv prio (drop s p (prio p)) := by
  have hpa : p ∈ s.alive := by rw [h.alive, hp]
  have hlt : (prio p).val < 3 := (prio p).isLt
  have hd : s.down = false := by
    cases hd : s.down with
    | false => rfl
    | true => rw [(h.downed hd).1] at hpa; cases hpa
  have hnz := nz_cons (s.own p) (s.pool (prio p).val)
  have hme : ∀ q, q ∈ s.alive.erase p ↔ q ≠ p ∧ q ∈ s.alive := fun q => h.aliveNd.mem_erase_iff
  have hnd := h.aliveNd.erase p
  have hl := fun i => lentAt_erase (prio := prio) (s := s)
    (s' := { s with alive := s.alive.erase p }) hpa rfl rfl i
  simp only [drop]
  split
  · rename_i h0
    rw [if_pos h0] at hnz
    obtain ⟨h1, h2, h3, h4, h5, h6, h7, h8, h9, h10, h11, h12, h13, h14, h15, h16⟩ := h
    constructor <;> (try dsimp only) <;> first
      | assumption
      | (intro _ i; have h15i := h15 hd i; rw [hl i] at h15i; refine Eq.trans h15i ?_
         show _ = _ + lentAt prio { s with alive := s.alive.erase p } i; grind; done)
      | grind
  · rename_i h0
    rw [if_neg h0] at hnz
    have hlo := h.lent p hp h0
    obtain ⟨h1, h2, h3, h4, h5, h6, h7, h8, h9, h10, h11, h12, h13, h14, h15, h16⟩ := h
    constructor <;> (try dsimp only) <;> first
      | assumption
      | (intro _ i; have h15i := h15 hd i; rw [hl i] at h15i; refine Eq.trans h15i ?_
         show _ = _ + lentAt prio { s with alive := s.alive.erase p } i; grind; done)
      | grind

theorem count_nz {x : Nat} (hx : x ≠ 0) (l : List Nat) : l.count x = (nz l).count x := by
  rw [nz, List.count_filter]; simp [hx]

theorem inv_shutdown {prio : Nat → Fin 3} {s s' : St} (h : Inv prio s) (hs : step prio s .shutdown = some s') :
    Inv prio s' := by
  simp only [step] at hs
  split at hs <;> cases hs
  rename_i hc
  obtain ⟨ha, hd⟩ := hc
  have hal : ∀ x, 0 < x → x ≤ s.made → s.loc x = .pooled := by
    intro x h1 h2
    have hk := (h.known x).2 ⟨h1, h2⟩
    cases hx : s.loc x with
    | none => exact absurd hx hk
    | pooled => rfl
    | lent p => have := (h.alive p).2 (h.lentTo x p hx).1; rw [ha] at this; cases this
    | destroyed => exact absurd hx (h.dest hd x)
  have hcount : ∀ x, x ≠ 0 → (s.killed ++ s.pool 0 ++ s.pool 1 ++ s.pool 2).count x = if x ≤ s.made then 1 else 0 := by
    intro x hx
    rw [h.killed hd]
    simp only [List.nil_append, List.count_append]
    rw [count_nz hx (s.pool 0), count_nz hx (s.pool 1), count_nz hx (s.pool 2)]
    have cz : ∀ i, s.sprio x ≠ i → (nz (s.pool i)).count x = 0 := by
      intro i hi
      rw [List.count_eq_zero]
      intro hm; exact hi (h.pooled i x hm).2.1
    by_cases hm : x ≤ s.made
    · have hp := h.inpool x (hal x (by omega) hm)
      have c1 : (nz (s.pool (s.sprio x))).count x = 1 := by
        have := List.nodup_iff_count.1 (h.nodup (s.sprio x)) x
        have := List.count_pos_iff.2 hp.1
        omega
      rw [if_pos hm]
      have h3 : s.sprio x = 0 ∨ s.sprio x = 1 ∨ s.sprio x = 2 := by omega
      rcases h3 with h3 | h3 | h3
      · rw [h3] at c1; rw [c1, cz 1 (by omega), cz 2 (by omega)]
      · rw [h3] at c1; rw [c1, cz 0 (by omega), cz 2 (by omega)]
      · rw [h3] at c1; rw [c1, cz 0 (by omega), cz 1 (by omega)]
    · rw [if_neg hm]
      have hn : ∀ i, (nz (s.pool i)).count x = 0 := by
        intro i
        rw [List.count_eq_zero]
        intro hmem
        have := (h.known x).1 (by rw [(h.pooled i x hmem).1]; simp)
        omega
      rw [hn, hn, hn]
  obtain ⟨h1, h2, h3, h4, h5, h6, h7, h8, h9, h10, h11, h12, h13, h14, h15, h16⟩ := h
  constructor <;> (try dsimp only) <;> first | assumption | exact fun _ => hcount | grind [nz_nil]

theorem inv_step {prio : Nat → Fin 3} {s s' : St} (a : Act) (h : Inv prio s) (hs : step prio s a = some s') :
    Inv prio s' := by
  cases a with
  | borrow p fails =>
    simp only [step] at hs; split at hs <;> cases hs
    rename_i hc; exact inv_borrow h hc.1 hc.2
  | bury p r =>
    simp only [step] at hs; split at hs <;> cases hs
    obtain ⟨h1, h2, h3, h4, h5, h6, h7, h8, h9, h10, h11, h12, h13, h14, h15, h16⟩ := h
    exact ⟨h1, h2, h3, h4, h5, h6, h7, h8, h9, h10, h11, h12, h13, h14, h15, h16⟩
  | drop p =>
    simp only [step] at hs; split at hs <;> cases hs
    rename_i hc; exact inv_drop h hc
  | shutdown => exact inv_shutdown h hs

theorem inv_reach {prio : Nat → Fin 3} {s : St} (h : Reachable prio s) : Inv prio s :=
  Reach.inv (Inv prio) (inv_init prio) (fun _ a _ h hs => inv_step a h hs) s h

/-- **C87** (partial: the null handle excepted): a stream is lent to one provider at a time, of the priority it was created
with, and is not in a pool meanwhile. -/
theorem C87_exclusive_partial {prio : Nat → Fin 3} {s : St} (h : Reachable prio s) {p : Nat} (hp : s.pc p = .alive)
    (h0 : s.own p ≠ 0) :
    (∀ q, s.pc q = .alive → s.own q = s.own p → q = p) ∧ s.sprio (s.own p) = (prio p).val ∧
      ∀ i, s.own p ∉ s.pool i := by
  have hi := inv_reach h
  have hl := hi.lent p hp h0
  refine ⟨?_, hl.2, ?_⟩
  · intro q hq he
    have := (hi.lent q hq (by rw [he]; exact h0)).1
    rw [he, hl.1] at this; cases this; rfl
  · intro i hm
    have := (hi.pooled i _ (mem_nz.2 ⟨hm, h0⟩)).1
    rw [hl.1] at this; cases this

/-- **C87** (partial: as long as no creation of a stream has failed): every provider has a stream of its own. -/
theorem C87_own_partial {prio : Nat → Fin 3} {s : St} (h : Reachable prio s) (hf : s.failures = 0) {p q : Nat}
    (hp : s.pc p = .alive) (hq : s.pc q = .alive) (hpq : p ≠ q) :
    s.own p ≠ 0 ∧ s.ok p = true ∧ s.own p ≠ s.own q := by
  have hn := (inv_reach h).nofail hf
  refine ⟨(hn.2 p hp).1, (hn.2 p hp).2, ?_⟩
  intro he
  exact hpq ((C87_exclusive_partial h hq (hn.2 q hq).1).1 p hp he)

/-- **C87**: a provider whose status is bad has no stream. -/
theorem C87_status {prio : Nat → Fin 3} {s : St} (h : Reachable prio s) {p : Nat} (hp : s.pc p = .alive)
    (ho : s.ok p = false) : s.own p = 0 := (inv_reach h).notok p hp ho

/-- **C87**: streams are reused: of each priority, no more streams are created than were lent at the same time at some
moment. -/
theorem C87_reuse {prio : Nat → Fin 3} {s : St} (h : Reachable prio s) (i : Nat) : s.madeAt i ≤ s.peakAt i :=
  (inv_reach h).peak i

/-- **C87**: when the context is gone, every stream that was created has been destroyed exactly once. -/
theorem C87_destroyed {prio : Nat → Fin 3} {s : St} (h : Reachable prio s) (hd : s.down = true) (x : Nat) (h1 : 0 < x)
    (h2 : x ≤ s.made) : s.killed.count x = 1 := by
  rw [(inv_reach h).killed2 hd x (by omega), if_pos h2]

/-- **C87**: no stream is lost before: each one created is in a pool or lent. -/
theorem C87_not_lost {prio : Nat → Fin 3} {s : St} (h : Reachable prio s) (hd : s.down = false) (x : Nat) (h1 : 0 < x)
    (h2 : x ≤ s.made) : (∃ i, x ∈ s.pool i) ∨ ∃ p, s.pc p = .alive ∧ s.own p = x := by
  have hi := inv_reach h
  have hk := (hi.known x).2 ⟨h1, h2⟩
  cases hx : s.loc x with
  | none => exact absurd hx hk
  | pooled => exact .inl ⟨_, (mem_nz.1 (hi.inpool x hx).1).1⟩
  | lent p => exact .inr ⟨p, (hi.lentTo x p hx).1, (hi.lentTo x p hx).2.1⟩
  | destroyed => exact absurd hx (hi.dest hd x)

/-- **C87**: the rites buried with a provider are performed when it is destroyed, each once, in the order of their burial,
before the stream is given back. -/
theorem C87_rites {prio : Nat → Fin 3} {s s' : St} {p : Nat} (hs : step prio s (.drop p) = some s') :
    s'.ran = s.ran ++ s.rites p ∧ s'.rites p = [] := by
  simp only [step] at hs; split at hs <;> cases hs
  simp only [drop]; split <;> simp

/-- **C87** is false without the proviso: after creations have failed, the pool lends the null handle, with a good status,
to several providers at once, and destroys it several times at the end. -/
theorem C87_violated : ∃ s, Reachable (fun _ => 0) s ∧ s.pc 2 = .alive ∧ s.pc 3 = .alive ∧ s.ok 2 = true ∧ s.ok 3 = true ∧
    s.own 2 = s.own 3 ∧ s.own 2 = 0 := by
  have := Reach.witness (init := init) (step := step (fun _ => 0))
    [.borrow 0 true, .borrow 1 true, .drop 0, .drop 1, .borrow 2 false, .borrow 3 false]
    (fun s : St => decide (s.pc 2 = .alive ∧ s.pc 3 = .alive ∧ s.ok 2 = true ∧ s.ok 3 = true ∧
      s.own 2 = s.own 3 ∧ s.own 2 = 0)) (by decide)
  obtain ⟨s, hr, hp⟩ := this
  exact ⟨s, hr, of_decide_eq_true hp⟩

/-- The end of that execution. -/
theorem C87_violated_destroy : ∃ s, Reachable (fun _ => 0) s ∧ s.killed = [0, 0] := by
  have := Reach.witness (init := init) (step := step (fun _ => 0))
    [.borrow 0 true, .borrow 1 true, .drop 0, .drop 1, .shutdown]
    (fun s : St => decide (s.killed = [0, 0])) (by decide)
  obtain ⟨s, hr, hp⟩ := this
  exact ⟨s, hr, of_decide_eq_true hp⟩

/-- Not vacuous: three providers, two streams (one reused), a rite, the end. -/
example : ∃ s, Reachable (fun _ => 1) s ∧ s.down = true ∧ s.made = 2 ∧ s.peakAt 1 = 2 ∧ s.ran = [7, 8] ∧
    s.failures = 0 := by
  have := Reach.witness (init := init) (step := step (fun _ => 1))
    [.borrow 0 false, .borrow 1 false, .bury 0 7, .bury 0 8, .drop 0, .borrow 2 true, .drop 1, .drop 2, .shutdown]
    (fun s : St => decide (s.down = true ∧ s.made = 2 ∧ s.peakAt 1 = 2 ∧ s.ran = [7, 8] ∧ s.failures = 0)) (by decide)
  obtain ⟨s, hr, hp⟩ := this
  exact ⟨s, hr, of_decide_eq_true hp⟩

/-- Two providers at the same time. -/
example : ∃ s, Reachable (fun p => if p = 0 then 0 else 2) s ∧ s.pc 0 = .alive ∧ s.pc 1 = .alive ∧ s.own 0 = 1 ∧ s.own 1 = 2 := by
  have := Reach.witness (init := init) (step := step (fun p => if p = 0 then 0 else 2))
    [.borrow 0 false, .borrow 1 false]
    (fun s : St => decide (s.pc 0 = .alive ∧ s.pc 1 = .alive ∧ s.own 0 = 1 ∧ s.own 1 = 2)) (by decide)
  obtain ⟨s, hr, hp⟩ := this
  exact ⟨s, hr, of_decide_eq_true hp⟩

end Verif.NvStreams
