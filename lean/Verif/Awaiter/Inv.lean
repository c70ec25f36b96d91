import Verif.Awaiter.Model
namespace Verif.Awaiter
set_option maxHeartbeats 2000000

/-- The states an awaiter goes through while its coroutine is suspended. -/
def tab (a : Aw) : Prop :=
  ((a.s = .start ∨ a.s = .xchg) →
    (a.p = .idle ∧ a.slot = some a.t ∧ a.inl = false) ∨
    (a.p = .load ∧ a.slot = some a.t ∧ (a.inl = true ↔ a.c = a.t) ∧ (a.s = .xchg → a.c ≠ a.t)) ∨
    (a.p = .store ∧ a.s = .start ∧ a.inl = true ∧ a.c = a.t ∧ a.slot = some a.t) ∨
    (a.p = .xchg ∧ a.c ≠ a.t ∧ a.inl = false ∧ a.slot = some a.t) ∨
    (a.p = .spin ∧ a.c ≠ a.t ∧ a.inl = false ∧ a.slot = some a.c) ∨
    (a.p = .fin ∧ a.inl = true ∧ a.slot = none)) ∧
  (a.s = .get → a.p = .fin ∧ a.inl = true) ∧
  (a.s = .fin →
    ((a.p = .idle ∨ a.p = .load ∨ a.p = .xchg ∨ a.p = .spin) ∧ a.slot = none) ∨ a.p = .get)

def over (a : Aw) : Prop := a.s = .fin ∧ a.p = .fin ∧ a.resumed = 1

def here : Co → Option Nat
  | .sus k => some k
  | .res k _ => some k
  | .stopped k => some k
  | _ => none

/-- How many awaits have delivered their result. -/
def delivered (s : St) : Nat :=
  match s.co with
  | .sus _ => s.n - 1
  | .res _ _ => s.n - 1
  | _ => s.n

structure Inv (s : St) : Prop where
  bad : s.bad = false
  old : ∀ k, k < s.n → here s.co ≠ some k → over (s.aw k) ∧ (s.aw k).alive = false
  fresh : ∀ k, s.n ≤ k → (s.aw k).resumed = 0
  last : ∀ k, here s.co = some k → k + 1 = s.n
  sus : ∀ k, s.co = .sus k → (s.aw k).alive = true ∧ (s.aw k).resumed = 0 ∧ tab (s.aw k)
  res : ∀ k t, s.co = .res k t → (s.aw k).alive = true ∧ over (s.aw k) ∧ (s.aw k).res ≠ .stopped
  stop : ∀ k, s.co = .stopped k → over (s.aw k) ∧ (s.aw k).res = .stopped
  dRun : ∀ t, s.co = .run t → ∀ x, s.depth x = if x = t then 1 else 0
  dRes : ∀ k t, s.co = .res k t → ∀ x, s.depth x = if x = t then 1 else 0
  dSus : ∀ k, s.co = .sus k → ∀ x, s.depth x = if x = (s.aw k).t ∧ (s.aw k).s ≠ .fin then 1 else 0
  dStop : ∀ x, s.depth x ≤ 1
  log : s.log = (List.range (delivered s)).reverse.map (fun k => (k, (s.aw k).res))

theorem log_ext {s s' : St} (h : s.log = (List.range (delivered s)).reverse.map (fun k => (k, (s.aw k).res)))
    (hl : s'.log = s.log) (hd : delivered s' = delivered s)
    (ha : ∀ k, k < delivered s → (s'.aw k).res = (s.aw k).res) :
    s'.log = (List.range (delivered s')).reverse.map (fun k => (k, (s'.aw k).res)) := by
  rw [hl, h, hd]
  apply List.map_congr_left
  intro k hk
  simp at hk
  rw [ha k hk]

theorem log_cons {s s' : St} {m : Nat}
    (h : s.log = (List.range (delivered s)).reverse.map (fun k => (k, (s.aw k).res)))
    (hm : delivered s = m) (hl : s'.log = (m, (s'.aw m).res) :: s.log) (hd : delivered s' = m + 1)
    (ha : ∀ k, k < m → (s'.aw k).res = (s.aw k).res) :
    s'.log = (List.range (delivered s')).reverse.map (fun k => (k, (s'.aw k).res)) := by
  rw [hl, h, hd, hm, List.range_succ]
  simp
  intro k hk
  exact (ha k hk).symm

theorem inv_init (t0 : Nat) : Inv (init t0) := by
  constructor <;> simp [init, here, delivered, aw0]
  intro x; split <;> simp

/-- If the coroutine is not in await `k`, nothing can happen there. -/
theorem not_over {s : St} (h : Inv s) {k : Nat} (hk : k < s.n)
    (ha : (s.aw k).s ≠ .fin ∨ (s.aw k).p ≠ .fin) : s.co = .sus k := by
  have h1 := h.old k hk
  have h2 : here s.co = some k := by
    by_cases hh : here s.co = some k
    · exact hh
    · have := h1 hh; unfold over at this; grind
  cases hc : s.co with
  | sus j => rw [hc] at h2; simp [here] at h2; rw [h2]
  | run t => rw [hc] at h2; simp [here] at h2
  | fin => rw [hc] at h2; simp [here] at h2
  | res j t =>
    rw [hc] at h2; simp [here] at h2; subst h2
    have := (h.res j t hc).2.1; unfold over at this; grind
  | stopped j =>
    rw [hc] at h2; simp [here] at h2; subst h2
    have := (h.stop j hc).1; unfold over at this; grind

/-- A step that only changes the awaiter in which the coroutine is suspended. -/
theorem inv_aw {s : St} (h : Inv s) {k : Nat} {a : Aw} {d : Nat → Nat} (hc : s.co = .sus k)
    (hal : a.alive = true) (hr : a.resumed = 0) (ht : tab a) (hat : a.t = (s.aw k).t)
    (hd : ∀ x, d x = if x = a.t ∧ a.s ≠ .fin then 1 else 0) :
    Inv { setAw s k a with depth := d } := by
  have hl := h.last k (by rw [hc]; rfl)
  have hs := h.sus k hc
  constructor
  · simp [setAw, h.bad, hs.1]
  · intro j hj hne
    simp only [setAw] at hj hne ⊢
    have : j ≠ k := by intro he; subst he; rw [hc] at hne; simp [here] at hne
    rw [upd_other _ _ this]
    exact h.old j hj hne
  · intro j hj
    simp only [setAw] at hj ⊢
    rw [upd_other _ _ (by omega)]; exact h.fresh j hj
  · exact h.last
  · intro j hj
    simp only [setAw] at hj ⊢
    rw [hc] at hj; cases hj
    simp [hal, hr, ht]
  · intro j t hj; simp only [setAw] at hj; rw [hc] at hj; cases hj
  · intro j hj; simp only [setAw] at hj; rw [hc] at hj; cases hj
  · intro t hj; simp only [setAw] at hj; rw [hc] at hj; cases hj
  · intro j t hj; simp only [setAw] at hj; rw [hc] at hj; cases hj
  · intro j hj x
    simp only [setAw] at hj ⊢
    rw [hc] at hj; cases hj
    simpa using hd x
  · intro x; simp only [setAw]; rw [hd x]; split <;> omega
  · refine log_ext h.log rfl (by simp [delivered, setAw]) ?_
    intro j hj
    simp only [setAw]
    have : j ≠ k := by simp [delivered, hc] at hj; omega
    rw [upd_other _ _ this]

/-- Resuming the coroutine. -/
theorem inv_resume {s : St} (h : Inv s) {k t : Nat} {a : Aw} {d : Nat → Nat} (hc : s.co = .sus k)
    (hal : a.alive = true) (hr : a.resumed = 0) (hf : a.s = .fin ∧ a.p = .fin)
    (hd : ∀ x, d x = if x = t then 1 else 0) :
    Inv { resume s k t a with depth := d } := by
  have hl := h.last k (by rw [hc]; rfl)
  have hs := h.sus k hc
  have hb : (s.bad || !(s.aw k).alive) = false := by simp [h.bad, hs.1]
  have old' : ∀ j, j < s.n → j ≠ k → over (s.aw j) ∧ (s.aw j).alive = false := by
    intro j hj hne
    exact h.old j hj (by rw [hc]; simp [here]; omega)
  unfold resume
  by_cases hst : a.res = .stopped
  · simp only [hst, if_true]
    constructor
    · exact hb
    · intro j hj hne
      simp only [setAw] at hj hne ⊢
      have : j ≠ k := by intro he; subst he; simp [here] at hne
      rw [upd_other _ _ this]
      exact old' j hj this
    · intro j hj
      simp only [setAw] at hj ⊢
      rw [upd_other _ _ (by omega)]; exact h.fresh j hj
    · intro j hj; simp only [setAw, here] at hj ⊢; cases hj; exact hl
    · intro j hj; simp only [setAw] at hj; cases hj
    · intro j t hj; simp only [setAw] at hj; cases hj
    · intro j hj; simp only [setAw] at hj ⊢; cases hj; simp [over, hf, hr, hst]
    · intro t hj; simp only [setAw] at hj; cases hj
    · intro j t hj; simp only [setAw] at hj; cases hj
    · intro j hj; simp only [setAw] at hj; cases hj
    · intro x; simp only; rw [hd x]; split <;> omega
    · refine log_cons h.log (m := k) (by simp [delivered, hc]; omega) (by simp [setAw, hst])
        (by simp [delivered, setAw]; omega) ?_
      intro j hj
      simp only [setAw]
      rw [upd_other _ _ (by omega)]
  · simp only [hst, if_false]
    constructor
    · exact hb
    · intro j hj hne
      simp only [setAw] at hj hne ⊢
      have : j ≠ k := by intro he; subst he; simp [here] at hne
      rw [upd_other _ _ this]
      exact old' j hj this
    · intro j hj
      simp only [setAw] at hj ⊢
      rw [upd_other _ _ (by omega)]; exact h.fresh j hj
    · intro j hj; simp only [setAw, here] at hj ⊢; cases hj; exact hl
    · intro j hj; simp only [setAw] at hj; cases hj
    · intro j t hj; simp only [setAw] at hj ⊢; cases hj; simp [over, hf, hr, hst, hal]
    · intro j hj; simp only [setAw] at hj; cases hj
    · intro t hj; simp only [setAw] at hj; cases hj
    · intro j t hj x; simp only [setAw] at hj ⊢; cases hj; exact hd x
    · intro j hj; simp only [setAw] at hj; cases hj
    · intro x; simp only; rw [hd x]; split <;> omega
    · refine log_ext h.log rfl (by simp [delivered, setAw, hc]) ?_
      intro j hj
      simp only [setAw]
      have : j ≠ k := by simp [delivered, hc] at hj; omega
      rw [upd_other _ _ this]

theorem inv_step {s : St} {a : Act} {s' : St} (h : Inv s) (hs : step s a = some s') : Inv s' := by
  cases a with
  | await =>
    simp only [step] at hs
    split at hs
    case h_2 => cases hs
    rename_i t hco
    cases hs
    constructor
    · exact h.bad
    · intro j hj hne
      simp only [here] at hj hne ⊢
      have : j ≠ s.n := by intro he; subst he; simp at hne
      rw [upd_other _ _ this]
      exact h.old j (by omega) (by rw [hco]; simp [here])
    · intro j hj
      simp only at hj ⊢
      rw [upd_other _ _ (by omega)]; exact h.fresh j (by omega)
    · intro j hj; simp only [here] at hj ⊢; cases hj; rfl
    · intro j hj; simp only at hj ⊢; cases hj; simp [tab]
    · intro j t hj; simp only at hj; cases hj
    · intro j hj; simp only at hj; cases hj
    · intro t hj; simp only at hj; cases hj
    · intro j t hj; simp only at hj; cases hj
    · intro j hj x; simp only at hj ⊢; cases hj; simpa using h.dRun t hco x
    · exact h.dStop
    · refine log_ext h.log rfl (by simp [delivered, hco]) ?_
      intro j hj
      simp only
      have : j ≠ s.n := by simp [delivered, hco] at hj; omega
      rw [upd_other _ _ this]
  | finish =>
    simp only [step] at hs
    split at hs
    case h_2 => cases hs
    rename_i t hco
    cases hs
    constructor
    · exact h.bad
    · intro j hj hne
      exact h.old j hj (by rw [hco]; simp [here])
    · exact h.fresh
    · intro j hj; simp [here] at hj
    · intro j hj; simp only at hj; cases hj
    · intro j t hj; simp only at hj; cases hj
    · intro j hj; simp only at hj; cases hj
    · intro t hj; simp only at hj; cases hj
    · intro j t hj; simp only at hj; cases hj
    · intro j hj; simp only at hj; cases hj
    · intro x
      have := h.dRun t hco x
      have := h.dRun t hco t
      simp only [upd]; grind
    · exact log_ext h.log rfl (by simp [delivered, hco]) (fun _ _ => rfl)
  | leave =>
    simp only [step] at hs
    split at hs
    case h_2 => cases hs
    rename_i k t hco
    cases hs
    have hl := h.last k (by rw [hco]; rfl)
    have hr := h.res k t hco
    constructor
    · simp [setAw, h.bad, hr.1]
    · intro j hj hne
      simp only [setAw] at hj ⊢
      by_cases hjk : j = k
      · subst hjk; simp; exact hr.2.1
      · rw [upd_other _ _ hjk]
        exact h.old j hj (by rw [hco]; simp [here]; omega)
    · intro j hj
      simp only [setAw] at hj ⊢
      rw [upd_other _ _ (by omega)]; exact h.fresh j hj
    · intro j hj; simp [here] at hj
    · intro j hj; simp only [setAw] at hj; cases hj
    · intro j t hj; simp only [setAw] at hj; cases hj
    · intro j hj; simp only [setAw] at hj; cases hj
    · intro t' hj x; simp only [setAw] at hj ⊢; cases hj; exact h.dRes k t hco x
    · intro j t hj; simp only [setAw] at hj; cases hj
    · intro j hj; simp only [setAw] at hj; cases hj
    · exact h.dStop
    · refine log_cons h.log (m := k) (by simp [delivered, hco]; omega) (by simp [setAw])
        (by simp [delivered, setAw]; omega) ?_
      intro j hj
      simp only [setAw]
      rw [upd_other _ _ (by omega)]
  | complete k c r =>
    simp only [step] at hs
    split at hs
    case isFalse => cases hs
    rename_i hg
    have hco := not_over h hg.1 (.inr (by rw [hg.2]; simp))
    have hsu := h.sus k hco
    have hd := h.dSus k hco
    have htab := hsu.2.2
    unfold tab at htab
    split at hs
    · rename_i h1
      cases hs
      refine inv_aw h hco hsu.1 hsu.2.1 ?_ rfl hd
      unfold tab; grind
    · split at hs
      · cases hs
      · rename_i h1 h2
        cases hs
        refine inv_aw h hco hsu.1 hsu.2.1 ?_ rfl hd
        unfold tab; grind
  | startRet k =>
    simp only [step] at hs
    split at hs
    case isFalse => cases hs
    rename_i hg
    cases hs
    have hco := not_over h hg.1 (.inl (by rw [hg.2.1]; simp))
    have hsu := h.sus k hco
    have hd := h.dSus k hco
    have htab := hsu.2.2
    unfold tab at htab
    have := inv_aw h hco (a := { s.aw k with s := .xchg }) (d := s.depth) hsu.1 hsu.2.1
      (by unfold tab; grind) rfl (by intro x; rw [hd x, hg.2.1]; simp)
    have he : { setAw s k { s.aw k with s := .xchg } with depth := s.depth } =
        { s with aw := upd s.aw k { s.aw k with s := .xchg } } := by
      simp [setAw, hsu.1]
    rw [he] at this; exact this
  | starter k =>
    simp only [step] at hs
    split at hs
    case isFalse => cases hs
    rename_i hk
    split at hs
    · rename_i hpc
      have hco := not_over h hk (.inl (by rw [hpc]; simp))
      have hsu := h.sus k hco
      have hd := h.dSus k hco
      have htab := hsu.2.2
      unfold tab at htab
      split at hs
      · cases hs
        refine inv_aw h hco hsu.1 hsu.2.1 ?_ rfl ?_
        · unfold tab; grind
        · intro x; rw [hd x, hpc]; simp
      · cases hs
        refine inv_aw h hco hsu.1 hsu.2.1 ?_ rfl ?_
        · unfold tab; grind
        · intro x
          have h1 := hd x
          have h2 := hd (s.aw k).t
          simp only [upd]; grind
    · rename_i hpc
      have hco := not_over h hk (.inl (by rw [hpc]; simp))
      have hsu := h.sus k hco
      have hd := h.dSus k hco
      have htab := hsu.2.2
      unfold tab at htab
      cases hs
      have this := inv_resume (d := s.depth) (t := (s.aw k).t) (a := { s.aw k with s := .fin }) h hco
        hsu.1 hsu.2.1 ⟨rfl, (htab.2.1 hpc).1⟩ (by intro x; rw [hd x, hpc]; simp)
      have he : { resume s k (s.aw k).t { s.aw k with s := .fin } with depth := s.depth } =
          resume s k (s.aw k).t { s.aw k with s := .fin } := by
        unfold resume; simp only [setAw]; split <;> rfl
      rw [he] at this; exact this
    · cases hs
  | comp k =>
    simp only [step] at hs
    split at hs
    case isFalse => cases hs
    rename_i hk
    split at hs
    · rename_i hpc
      have hco := not_over h hk (.inr (by rw [hpc]; simp))
      have hsu := h.sus k hco
      have hd := h.dSus k hco
      have htab := hsu.2.2
      unfold tab at htab
      split at hs <;> cases hs <;> refine inv_aw h hco hsu.1 hsu.2.1 ?_ rfl hd
      all_goals (unfold tab; grind)
    · rename_i hpc
      have hco := not_over h hk (.inr (by rw [hpc]; simp))
      have hsu := h.sus k hco
      have hd := h.dSus k hco
      have htab := hsu.2.2
      unfold tab at htab
      cases hs
      refine inv_aw h hco hsu.1 hsu.2.1 ?_ rfl hd
      unfold tab; grind
    · rename_i hpc
      have hco := not_over h hk (.inr (by rw [hpc]; simp))
      have hsu := h.sus k hco
      have hd := h.dSus k hco
      have htab := hsu.2.2
      unfold tab at htab
      split at hs <;> cases hs <;> refine inv_aw h hco hsu.1 hsu.2.1 ?_ rfl hd
      all_goals (unfold tab; grind)
    · rename_i hpc
      have hco := not_over h hk (.inr (by rw [hpc]; simp))
      have hsu := h.sus k hco
      have hd := h.dSus k hco
      have htab := hsu.2.2
      unfold tab at htab
      split at hs
      case isFalse => cases hs
      cases hs
      refine inv_aw h hco hsu.1 hsu.2.1 ?_ rfl hd
      unfold tab; grind
    · rename_i hpc
      have hco := not_over h hk (.inr (by rw [hpc]; simp))
      have hsu := h.sus k hco
      have hd := h.dSus k hco
      have htab := hsu.2.2
      unfold tab at htab
      cases hs
      have hsf : (s.aw k).s = .fin := by
        cases hx : (s.aw k).s <;> grind
      refine inv_resume h hco hsu.1 hsu.2.1 ⟨hsf, rfl⟩ ?_
      intro x
      have h1 := hd x
      rw [hsf] at h1
      have h2 := hd (s.aw k).c
      rw [hsf] at h2
      simp only [upd]; grind
    · cases hs

theorem inv_reach {t0 : Nat} {s : St} (h : Reach (init t0) step s) : Inv s :=
  Reach.inv Inv (inv_init t0) (fun _ _ _ hi he => inv_step hi he) s h

theorem resume_aw (s : St) (k t : Nat) (a : Aw) :
    (resume s k t a).aw = upd s.aw k { a with resumed := a.resumed + 1 } := by
  simp only [resume, setAw]; split <;> rfl

/-- A completion that runs inside `start()` runs on the awaiting thread. -/
theorem inl_same {t0 : Nat} {s : St} (h : Reach (init t0) step s) (k : Nat) :
    (s.aw k).inl = true → (s.aw k).c = (s.aw k).t := by
  revert k
  refine Reach.inv (fun s => ∀ k, (s.aw k).inl = true → (s.aw k).c = (s.aw k).t) ?_ ?_ s h
  · intro k; simp [init, aw0]
  · intro s a s' hi hs k
    have := hi k
    cases a <;> simp only [step] at hs
    all_goals
      repeat' split at hs
      all_goals first
        | (cases hs; done)
        | (cases hs; simp only [setAw, resume_aw, upd]; grind)

end Verif.Awaiter
