import Verif.Uring.Inv
namespace Verif.Uring
set_option maxHeartbeats 4000000

theorem invO_init (n : Nat) (kind : Nat → Kind) (cap slots : Nat) : InvO (init n kind cap slots) := by
  constructor <;> simp [init, cI, accepted, final, inSub]

/-- A step that only moves tasks around. -/
theorem invO_move {s s' : St} (h : InvO s) (hn : s'.n = s.n) (hk : s'.kind = s.kind) (ho : s'.opc = s.opc)
    (hd : s'.done = s.done) (hi : s'.inl = s.inl) (hs : s'.stopd = s.stopd)
    (hc : ∀ i, cI s' i = cI s i)
    (h1 : ∀ t ∈ s'.out, isReady s t = false) (h2 : ∀ t ∈ s'.sq, isReady s t = false)
    (h3 : ∀ t ∈ s'.ring, isReady s t = false) (h4 : ∀ t ∈ s'.cq, isReady s t = false)
    (h5 : ∀ i ∈ s'.ready, s.kind i = .ready)
    (he : s.everStop = true → s'.everStop = true)
    (h6 : s'.stopReq = true → s'.everStop = true) (h7 : s'.closed = true → s'.everStop = true)
    (h8 : s'.stp = true → s'.everStop = true) (ht : inSub s'.pc = false → s'.tasks = [] ∧ s'.out = [])
    (hp : inSub s'.pc = true → ∀ i, s'.pend.count (.op i) = 0)
    (h9 : s'.pc = .cls ∨ final s'.pc = true → s'.everStop = true) :
    InvO s' := by
  have hr : ∀ t, isReady s' t = isReady s t := by intro t; cases t <;> simp [isReady, hk]
  constructor
  · rw [hn, ho]; exact h.idle0
  · intro i; rw [hc, hd, ho]; exact h.ops i
  · intro t ht; rw [hr]; exact h1 t ht
  · intro t ht; rw [hr]; exact h2 t ht
  · intro t ht; rw [hr]; exact h3 t ht
  · intro t ht; rw [hr]; exact h4 t ht
  · rw [hk]; exact h5
  · rw [hi, hs]; exact h.inl
  · intro i hh; rw [hs] at hh; exact he (h.stopd i hh)
  · exact h6
  · exact h7
  · exact h8
  · exact ht
  · exact hp
  · exact h9

/-- A task is completed: it was the head of one of the lists. -/
theorem invO_comp {s : St} (h : InvO s) {t : T} {c : Bool} (s0 : St)
    (hn : s0.n = s.n) (hk : s0.kind = s.kind) (ho : s0.opc = s.opc)
    (hd : s0.done = s.done) (hi : s0.inl = s.inl) (hs : s0.stopd = s.stopd)
    (hc : ∀ i, cI s0 i + (if t = .op i then 1 else 0) = cI s i)
    (h1 : ∀ t ∈ s0.out, isReady s t = false) (h2 : ∀ t ∈ s0.sq, isReady s t = false)
    (h3 : ∀ t ∈ s0.ring, isReady s t = false) (h4 : ∀ t ∈ s0.cq, isReady s t = false)
    (h5 : ∀ i ∈ s0.ready, s.kind i = .ready)
    (he : s0.everStop = s.everStop) (h6 : s0.stopReq = s.stopReq) (h7 : s0.closed = s.closed)
    (h8 : s0.stp = s.stp) (h9 : s0.pc = s.pc)
    (ht : inSub s.pc = false → s0.tasks = [] ∧ s0.out = []) (hp : s0.pend = s.pend) (hcc : c = true → s.everStop = true) :
    InvO (comp s0 t c) := by
  cases t with
  | wake =>
    have base : InvO s0 := invO_move h hn hk ho hd hi hs (fun i => by simpa using hc i) h1 h2 h3 h4 h5
      (fun hx => he ▸ hx) (fun hx => he ▸ h.ever (h6 ▸ hx)) (fun hx => he ▸ h.clsd (h7 ▸ hx))
      (fun hx => he ▸ h.stp (h8 ▸ hx)) (fun hx => ht (h9 ▸ hx)) (fun hx => hp ▸ h.pn (h9 ▸ hx))
      (fun hx => he ▸ h.fin (h9 ▸ hx))
    by_cases hx : s0.stopReq = true
    · have e : comp s0 .wake c = s0 := by simp [comp, wakeStart, hx]
      rw [e]; exact base
    · have e : comp s0 .wake c = { s0 with pend := .wake :: s0.pend, bad := s0.bad || decide (T.wake ∈ s0.pend) } := by
        simp [comp, wakeStart, hx]
      rw [e]
      exact invO_move base rfl rfl rfl rfl rfl rfl (fun i => by simp [cI, List.count_cons]) base.kout base.ksq base.kring
        base.kcq base.kready id base.ever base.clsd base.stp base.tk
        (fun hx i => by simp only [List.count_cons]; have := base.pn hx i; simp [this]) base.fin
  | op j =>
    have hr : ∀ t, isReady (comp s0 (.op j) c) t = isReady s t := by
      intro t; cases t <;> simp [isReady, comp, finOp, hk]
    have hc' : ∀ i, cI s0 i + (if j = i then 1 else 0) = cI s i := by
      intro i; have := hc i; simpa using this
    constructor
    · simp only [comp, finOp, hn, ho]; exact h.idle0
    · intro i
      have h9 := h.ops i
      have h10 := hc' i
      show cI s0 i + upd s0.done j (s0.done j + 1) i = accepted (s0.opc i)
      rw [ho, hd, ← h9]
      by_cases hij : i = j
      · subst hij; simp [upd] at h10 ⊢; omega
      · have : ¬ j = i := fun h => hij h.symm
        simp [hij, this, upd] at h10 ⊢; omega
    · intro t ht; rw [hr]; exact h1 t ht
    · intro t ht; rw [hr]; exact h2 t ht
    · intro t ht; rw [hr]; exact h3 t ht
    · intro t ht; rw [hr]; exact h4 t ht
    · simp only [comp, finOp, hk]; exact h5
    · intro i; simp only [comp, finOp, hi, hs, upd]; split
      · simp
      · exact h.inl i
    · intro i; simp only [comp, finOp, hs, upd, he]; split
      · intro hx; simp at hx
        rcases hx with hx | hx
        · exact hcc hx
        · exact h.ever (h6 ▸ hx.2)
      · exact h.stopd i
    · simp only [comp, finOp, h6, he]; exact h.ever
    · simp only [comp, finOp, h7, he]; exact h.clsd
    · simp only [comp, finOp, h8, he]; exact h.stp
    · simp only [comp, finOp, h9]; exact ht
    · simp only [comp, finOp, h9, hp]; exact h.pn
    · simp only [comp, finOp, h9, he]; exact h.fin

theorem invO_drv {s s' : St} (h : InvO s) (hs : drv s = some s') : InvO s' := by
  unfold drv at hs
  split at hs
  · cases hs
  · -- start
    rename_i hpc
    have htk := h.tk (by rw [hpc]; rfl)
    split at hs
    · cases hs
      exact invO_move h rfl rfl rfl rfl rfl rfl (fun i => rfl) h.kout h.ksq h.kring h.kcq h.kready id
        (fun hx => by cases hx) (fun hx => by cases hx) h.stp (fun _ => htk) (by simp [inSub]) (by simp [final])
    · cases hs
      have h1 := invO_comp h (t := .wake) (c := false) s rfl rfl rfl rfl rfl rfl (fun i => by simp) h.kout h.ksq h.kring
        h.kcq h.kready rfl rfl rfl rfl rfl (fun _ => htk) rfl (by simp)
      have htk1 := h1.tk (by
        have : (comp s .wake false).pc = s.pc := by unfold comp wakeStart; simp only []; split <;> rfl
        rw [this, hpc]; rfl)
      exact invO_move h1 rfl rfl rfl rfl rfl rfl (fun i => rfl) h1.kout h1.ksq h1.kring h1.kcq h1.kready id
        h1.ever h1.clsd h1.stp (fun _ => htk1) (by simp [inSub]) (by simp [final])
  · -- pop
    rename_i k hpc
    have htk := h.tk (by rw [hpc]; rfl)
    cases hs
    have hc : ∀ i, cI { s with pend := s.pend ++ s.req.reverse.map .op, req := [] } i = cI s i := by
      intro i
      simp only [cI, List.count_append, count_map_op, List.count_reverse, List.count_nil]
      omega
    cases k
    case last =>
      refine invO_move h rfl rfl rfl rfl rfl rfl (fun i => ?_) h.kout h.ksq h.kring h.kcq h.kready id
        h.ever h.clsd (fun _ => h.fin (.inr (by rw [hpc]; rfl))) (by simp [inSub, afterPop])
        (by simp [afterPop]) (fun _ => h.fin (.inr (by rw [hpc]; rfl)))
      rw [← hc i]
      simp only [cI, afterPop, htk, List.count_nil]
      omega
    all_goals
      exact invO_move h rfl rfl rfl rfl rfl rfl hc h.kout h.ksq h.kring h.kcq h.kready id
        h.ever h.clsd h.stp (fun _ => htk) (by simp [inSub, afterPop]) (by simp [final, afterPop])
  · -- test
    rename_i hpc
    have htk := h.tk (by rw [hpc]; rfl)
    cases hs
    refine invO_move h rfl rfl rfl rfl rfl rfl (fun i => rfl) h.kout h.ksq h.kring h.kcq h.kready id
      h.ever h.clsd h.stp (fun _ => htk) ?_ ?_
    · intro hx; simp only at hx; split at hx <;> simp [inSub] at hx
    · intro hx; simp only at hx; split at hx <;> simp [final] at hx
  · -- cq
    rename_i k hpc
    have htk := h.tk (by rw [hpc]; rfl)
    split at hs
    · cases hs
      exact invO_move h rfl rfl rfl rfl rfl rfl (fun i => rfl) h.kout h.ksq h.kring h.kcq h.kready id
        h.ever h.clsd h.stp (fun _ => htk) (by simp [inSub]) (fun hx => h.fin (by
          rw [hpc]; revert hx; cases k <;> simp [final]))
    · rename_i t r hcq
      cases hs
      refine invO_comp h { s with cq := r, total := s.total - 1 } rfl rfl rfl rfl rfl rfl (fun i => ?_) h.kout h.ksq
        h.kring (fun t ht => h.kcq t (by rw [hcq]; simp [ht])) h.kready rfl rfl rfl rfl rfl (fun _ => htk) rfl (by simp)
      simp only [cI, hcq, List.count_cons, beq_iff_eq]
      omega
  · -- rdy
    rename_i k hpc
    have htk := h.tk (by rw [hpc]; rfl)
    split at hs
    · cases hs
      cases k <;>
      exact invO_move h rfl rfl rfl rfl rfl rfl (fun i => rfl) h.kout h.ksq h.kring h.kcq h.kready id
        h.ever h.clsd h.stp (fun _ => htk) (by simp [inSub, afterComplete]) (by simp [final, afterComplete])
    · rename_i i r hr
      cases hs
      refine invO_comp h (t := .op i) (c := false) { s with ready := r } rfl rfl rfl rfl rfl rfl (fun j => ?_) h.kout h.ksq
        h.kring h.kcq (fun t ht => h.kready t (by rw [hr]; simp [ht])) rfl rfl rfl rfl rfl (fun _ => htk) rfl (by simp)
      simp only [cI, hr, List.count_cons, beq_iff_eq, T.op.injEq]
      omega
  · -- rd
    rename_i hpc
    have htk := h.tk (by rw [hpc]; rfl)
    cases hs
    refine invO_move h rfl rfl rfl rfl rfl rfl (fun i => ?_) h.kout h.ksq h.kring h.kcq h.kready id
      h.ever h.clsd h.ever (by simp [inSub]) (by simp) (by simp [final])
    simp only [cI, htk, List.count_nil]
    omega
  · -- sub
    rename_i f hpc
    have hfin : final (.sub2 f) = final (.sub f) := by cases f <;> rfl
    have hmove : InvO { s with pc := .sub2 f } :=
      invO_move h rfl rfl rfl rfl rfl rfl (fun i => rfl) h.kout h.ksq h.kring h.kcq h.kready id
        h.ever h.clsd h.stp (by simp [inSub]) (fun _ => h.pn (by rw [hpc]; rfl))
        (fun hx => h.fin (by simp [hfin] at hx; rw [hpc]; exact .inr hx))
    split at hs
    · cases hs; exact hmove
    · rename_i t r ht
      split at hs
      · cases hs
        unfold subOne
        split
        · rename_i hr
          refine invO_move h rfl rfl rfl rfl rfl rfl (fun i => ?_) h.kout h.ksq h.kring h.kcq ?_ id
            h.ever h.clsd h.stp (by rw [hpc]; simp [inSub]) h.pn h.fin
          · simp only [cI, ht, List.count_append, count_ids, List.count_cons, List.count_nil]; omega
          · intro i hi
            rcases List.mem_append.1 hi with hi | hi
            · exact h.kready i hi
            · cases t with
              | wake => simp [ids] at hi
              | op j => simp [ids] at hi; subst hi; simpa [isReady] using hr
        · split
          · rename_i hr hst
            refine invO_comp h { s with tasks := r } rfl rfl rfl rfl rfl rfl (fun i => ?_) h.kout h.ksq h.kring h.kcq h.kready
              rfl rfl rfl rfl rfl (by rw [hpc]; simp [inSub]) rfl (fun _ => h.stp (by simp at hst; exact hst.1))
            simp only [cI, ht, List.count_cons, beq_iff_eq]; omega
          · rename_i hr _
            refine invO_move h rfl rfl rfl rfl rfl rfl (fun i => ?_) h.kout ?_ h.kring h.kcq h.kready id
              h.ever h.clsd (by simp) (by rw [hpc]; simp [inSub]) h.pn h.fin
            · simp only [cI, ht, List.count_append, List.count_cons, List.count_nil]; omega
            · intro u hu
              rcases List.mem_append.1 hu with hu | hu
              · exact h.ksq u hu
              · simp at hu; subst hu; simpa using hr
      · cases hs; exact hmove
  · -- sub2
    rename_i f hpc
    split at hs
    · rename_i ht
      split at hs
      · cases hs
        refine invO_move h rfl rfl rfl rfl rfl rfl (fun i => ?_) (by simp) h.ksq h.kring h.kcq h.kready id
          h.ever h.clsd h.stp (fun _ => ⟨ht, rfl⟩) (by simp) (fun _ => ?_)
        · simp only [cI, List.count_append, List.count_nil]; omega
        · rename_i hf _; subst hf; exact h.fin (by rw [hpc]; simp [final])
      · cases hs
        refine invO_move h rfl rfl rfl rfl rfl rfl (fun i => ?_) (by simp) h.ksq h.kring h.kcq h.kready id
          h.ever h.clsd h.stp (fun _ => ⟨ht, rfl⟩) ?_ ?_
        · have := h.pn (by rw [hpc]; rfl) i
          simp only [cI, List.count_nil, this]; omega
        · intro hx; simp only at hx; split at hx <;> simp [inSub] at hx
        · intro hx; simp only at hx; split at hx <;> simp [final] at hx
    · rename_i t r ht
      split at hs
      · rename_i hr
        cases hs
        refine invO_move h rfl rfl rfl rfl rfl rfl (fun i => ?_) h.kout h.ksq h.kring h.kcq ?_ id
          h.ever h.clsd h.stp (by rw [hpc]; simp [inSub]) h.pn h.fin
        · simp only [cI, ht, List.count_append, count_ids, List.count_cons, List.count_nil]; omega
        · intro i hi
          rcases List.mem_append.1 hi with hi | hi
          · exact h.kready i hi
          · cases t with
            | wake => simp [ids] at hi
            | op j => simp [ids] at hi; subst hi; simpa [isReady] using hr
      · rename_i hr
        cases hs
        refine invO_move h rfl rfl rfl rfl rfl rfl (fun i => ?_) ?_ h.ksq h.kring h.kcq h.kready id
          h.ever h.clsd h.stp (by rw [hpc]; simp [inSub]) h.pn h.fin
        · simp only [cI, ht, List.count_append, List.count_cons, List.count_nil]; omega
        · intro u hu
          rcases List.mem_append.1 hu with hu | hu
          · exact h.kout u hu
          · simp at hu; subst hu; simpa using hr
  · -- chk
    rename_i hpc
    have htk := h.tk (by rw [hpc]; rfl)
    split at hs <;> cases hs <;>
    exact invO_move h rfl rfl rfl rfl rfl rfl (fun i => rfl) h.kout h.ksq h.kring h.kcq h.kready id
      h.ever h.clsd h.stp (fun _ => htk) (by simp [inSub]) (by simp [final])
  · cases hs
  · -- wait
    rename_i hpc
    have htk := h.tk (by rw [hpc]; rfl)
    split at hs
    · cases hs
    · cases hs
      exact invO_move h rfl rfl rfl rfl rfl rfl (fun i => rfl) h.kout h.ksq h.kring h.kcq h.kready id
        h.ever h.clsd h.stp (fun _ => htk) (by simp [inSub]) (by simp [final])
  · -- ex
    rename_i hpc
    have htk := h.tk (by rw [hpc]; rfl)
    cases hs
    refine invO_move h rfl rfl rfl rfl rfl rfl (fun i => rfl) h.kout h.ksq h.kring h.kcq h.kready id
      h.ever h.clsd h.stp (fun _ => htk) ?_ ?_
    · intro hx; simp only at hx; split at hx <;> simp [inSub] at hx
    · intro hx; simp only at hx; split at hx
      · rename_i hc; exact h.ever hc.1
      · simp [final] at hx
  · -- cls
    rename_i hpc
    have htk := h.tk (by rw [hpc]; rfl)
    split at hs
    · cases hs
      exact invO_move h rfl rfl rfl rfl rfl rfl (fun i => rfl) h.kout h.ksq h.kring h.kcq h.kready id
        h.ever (fun _ => h.fin (.inl hpc)) h.stp (fun _ => htk) (by simp [inSub]) (fun _ => h.fin (.inl hpc))
    · cases hs
  · -- ret
    rename_i hpc
    have htk := h.tk (by rw [hpc]; rfl)
    cases hs
    exact invO_move h rfl rfl rfl rfl rfl rfl (fun i => rfl) h.kout h.ksq h.kring h.kcq h.kready id
      h.ever h.clsd h.stp (fun _ => htk) (by simp [inSub]) (by simp [final])

theorem invO_step {s s' : St} {a : Act} (h : InvO s) (hs : step s a = some s') : InvO s' := by
  cases a with
  | drv => exact invO_drv h hs
  | run e =>
    simp only [step] at hs
    split at hs
    case isFalse => cases hs
    rename_i hpc
    have htk := h.tk (by rw [hpc]; rfl)
    cases hs
    exact invO_move h rfl rfl rfl rfl rfl rfl (fun i => rfl) h.kout h.ksq h.kring h.kcq h.kready id
      h.ever h.clsd h.stp (fun _ => htk) (by simp [inSub]) (by simp [final])
  | enter k =>
    simp only [step] at hs
    split at hs
    case isFalse => cases hs
    rename_i hc
    have htk := h.tk (by rw [hc.1]; rfl)
    cases hs
    refine invO_move h rfl rfl rfl rfl rfl rfl (fun i => ?_) h.kout
      (fun t ht => h.ksq t (List.mem_of_mem_drop ht)) ?_ h.kcq h.kready id
      h.ever h.clsd h.stp (fun _ => htk) ?_ ?_
    · have := count_take_drop (l := s.sq) k (.op i)
      simp only [cI, List.count_append]; omega
    · intro t ht
      rcases List.mem_append.1 ht with ht | ht
      · exact h.kring t ht
      · exact h.ksq t (List.mem_of_mem_take ht)
    · intro hx; simp only at hx; split at hx <;> simp [inSub] at hx
    · intro hx; simp only at hx; split at hx <;> simp [final] at hx
  | intr =>
    simp only [step] at hs
    split at hs
    case isFalse => cases hs
    rename_i hpc
    have htk := h.tk (by rw [hpc]; rfl)
    cases hs
    exact invO_move h rfl rfl rfl rfl rfl rfl (fun i => rfl) h.kout h.ksq h.kring h.kcq h.kready id
      h.ever h.clsd h.stp (fun _ => htk) (by simp [inSub]) (by simp [final])
  | kop i =>
    simp only [step] at hs
    split at hs
    case isFalse => cases hs
    rename_i hm
    cases hs
    refine invO_move h rfl rfl rfl rfl rfl rfl (fun j => ?_) h.kout h.ksq (fun t ht => h.kring t (List.mem_of_mem_erase ht))
      ?_ h.kready id h.ever h.clsd h.stp h.tk h.pn h.fin
    · have h1 : 0 < s.ring.count (.op i) := List.count_pos_iff.2 hm
      simp only [cI, List.count_append, List.count_erase, List.count_cons, List.count_nil, beq_iff_eq, T.op.injEq]
      by_cases hij : i = j
      · subst hij; simp; omega
      · have : ¬ j = i := fun h => hij h.symm
        simp [hij, this]
    · intro t ht
      rcases List.mem_append.1 ht with ht | ht
      · exact h.kcq t ht
      · simp at ht; subst ht; exact h.kring _ hm
  | kwake =>
    simp only [step] at hs
    split at hs
    case isFalse => cases hs
    rename_i hm
    cases hs
    refine invO_move h rfl rfl rfl rfl rfl rfl (fun j => ?_) h.kout h.ksq (fun t ht => h.kring t (List.mem_of_mem_erase ht))
      ?_ h.kready id h.ever h.clsd h.stp h.tk h.pn h.fin
    · simp [cI, List.count_append, List.count_erase, List.count_cons, List.count_nil]
    · intro t ht
      rcases List.mem_append.1 ht with ht | ht
      · exact h.kcq t ht
      · simp at ht; subst ht; exact h.kring _ hm.1
  | start i =>
    simp only [step] at hs
    split at hs
    case isFalse => cases hs
    rename_i hi
    have hops : cI s i + s.done i = 0 := by have := h.ops i; rw [hi.2] at this; exact this
    split at hs
    · rename_i hcl
      cases hs
      constructor
      · intro j hj
        have : j ≠ i := by rintro rfl; have := hi.1; simp only [finOp] at hj; omega
        simp only [finOp, upd, this, if_false]; exact h.idle0 j hj
      · intro j
        show cI s j + upd s.done i (s.done i + 1) j = accepted (upd s.opc i .ret j)
        by_cases hij : j = i
        · subst hij; simp [upd, accepted]; omega
        · simp only [upd, hij, if_false]; exact h.ops j
      · intro t ht; have := h.kout t ht; cases t <;> simpa [isReady, finOp] using this
      · intro t ht; have := h.ksq t ht; cases t <;> simpa [isReady, finOp] using this
      · intro t ht; have := h.kring t ht; cases t <;> simpa [isReady, finOp] using this
      · intro t ht; have := h.kcq t ht; cases t <;> simpa [isReady, finOp] using this
      · exact h.kready
      · intro j; simp only [finOp, upd]; split
        · simp
        · exact h.inl j
      · intro j; simp only [finOp, upd]; split
        · intro _; exact h.clsd hcl
        · exact h.stopd j
      · exact h.ever
      · exact h.clsd
      · exact h.stp
      · exact h.tk
      · exact h.pn
      · exact h.fin
    · cases hs
      exact { h with
        idle0 := fun j hj => by
          have : j ≠ i := by rintro rfl; have := hi.1; simp only at hj; omega
          simp only [upd, this, if_false]; exact h.idle0 j hj
        ops := fun j => by
          show cI s j + s.done j = accepted (upd s.opc i .acc j)
          by_cases hij : j = i
          · subst hij; simp [upd, accepted]; omega
          · simp only [upd, hij, if_false]; exact h.ops j }
  | push i =>
    simp only [step] at hs
    split at hs
    case isFalse => cases hs
    rename_i hi
    have hops : cI s i + s.done i = 0 := by have := h.ops i; rw [hi.2] at this; exact this
    cases hs
    exact { h with
      idle0 := fun j hj => by
        have : j ≠ i := by rintro rfl; have := hi.1; simp only at hj; omega
        simp only [upd, this, if_false]; exact h.idle0 j hj
      ops := fun j => by
        have h1 := h.ops j
        by_cases hij : j = i
        · subst hij; simp [upd, accepted, cI, List.count_cons] at hops ⊢; omega
        · have : ¬ i = j := fun h => hij h.symm
          simp [upd, hij, cI, List.count_cons, this] at h1 ⊢; omega }
  | dec i =>
    simp only [step] at hs
    split at hs
    case isFalse => cases hs
    rename_i hi
    cases hs
    exact { h with
      idle0 := fun j hj => by
        have : j ≠ i := by rintro rfl; have := hi.1; simp only at hj; omega
        simp only [upd, this, if_false]; exact h.idle0 j hj
      ops := fun j => by
        have h1 := h.ops j
        show cI s j + s.done j = accepted (upd s.opc i .wk j)
        by_cases hij : j = i
        · subst hij; rw [hi.2] at h1; simpa [upd, accepted] using h1
        · simp only [upd, hij, if_false]; exact h1 }
  | wakeOp i =>
    simp only [step] at hs
    split at hs
    case isFalse => cases hs
    rename_i hi
    cases hs
    exact { h with
      idle0 := fun j hj => by
        have : j ≠ i := by rintro rfl; have := hi.1; simp only at hj; omega
        simp only [upd, this, if_false]; exact h.idle0 j hj
      ops := fun j => by
        have h1 := h.ops j
        show cI s j + s.done j = accepted (upd s.opc i .ret j)
        by_cases hij : j = i
        · subst hij; rw [hi.2] at h1; simpa [upd, accepted] using h1
        · simp only [upd, hij, if_false]; exact h1 }
  | reqStop =>
    simp only [step] at hs
    cases hs
    exact invO_move h rfl rfl rfl rfl rfl rfl (fun i => rfl) h.kout h.ksq h.kring h.kcq h.kready (fun _ => rfl)
      (fun _ => rfl) (fun _ => rfl) (fun _ => rfl) h.tk h.pn (fun _ => rfl)
  | wakeStop =>
    simp only [step] at hs
    split at hs
    case isFalse => cases hs
    cases hs
    exact invO_move h rfl rfl rfl rfl rfl rfl (fun i => rfl) h.kout h.ksq h.kring h.kcq h.kready id
      h.ever h.clsd h.stp h.tk h.pn h.fin
  | finish =>
    simp only [step] at hs
    cases hs
    exact invO_move h rfl rfl rfl rfl rfl rfl (fun i => rfl) h.kout h.ksq h.kring h.kcq h.kready id
      h.ever h.clsd h.stp h.tk h.pn h.fin
  | wakeFin =>
    simp only [step] at hs
    split at hs
    case isFalse => cases hs
    cases hs
    exact invO_move h rfl rfl rfl rfl rfl rfl (fun i => rfl) h.kout h.ksq h.kring h.kcq h.kready id
      h.ever h.clsd h.stp h.tk h.pn h.fin
  | reset =>
    simp only [step] at hs
    split at hs
    case isFalse => cases hs
    cases hs
    exact invO_move h rfl rfl rfl rfl rfl rfl (fun i => rfl) h.kout h.ksq h.kring h.kcq h.kready id
      (by simp) (by simp) h.stp h.tk h.pn h.fin

end Verif.Uring
