import Verif.Asio.Step2
set_option maxHeartbeats 4000000
namespace Verif.Asio
set_option hygiene false

theorem inv_drop (s : St) (p : Ph) (t : Nat) (h : InvP s p) (hh : s.h = .live) (hu : userTop (s.stk t) = true)
    (hl : s.lockable t = true) (hb : nEmit (s.stk t) = 0 ∨ bottom (s.stk t) = some true) :
    InvP { s.push t .drop with h := .dropped, abandoned := true } (.dropping t) := by
  have hp : p = .live := by
    cases p <;> first | rfl | (exfalso; fields; clear h; grind)
  subst hp
  have h := inv_push s .live t .drop h hu hl (.inr rfl) (.inl rfl)
  have hbt : bottom (.frame .drop s.next true :: s.stk t) = some true := by
    rcases hb with hb | hb
    · exact bottom_noemit _ (by simpa [nEmit] using hb) (by simp [nOwn])
    · exact bottom_cons _ _ _ hb
  have hbt : bottom ((s.push t .drop).stk t) = some true := by simpa [St.push, upd, St.touch, St.lock] using hbt
  have how : (s.push t .drop).owner = some t := by simp [St.push, St.lock, St.touch]
  generalize s.push t .drop = s at *
  constructor <;> simp only
  case bad => exact h.bad
  case asrt => exact h.asrt
  case offS => exact fun _ => h.offS (.inl rfl)
  all_goals
    fields
    clear h
    first
      | assumption
      | gr
      | skip

theorem inv_call (s : St) (p : Ph) (t : Nat) (h : InvP s p) (hh : s.h = .live) (hu : userTop (s.stk t) = true)
    (hl : s.lockable t = true) (hb : nEmit (s.stk t) = 0) :
    InvP { s.release with h := .called, stk := upd s.release.stk t (.call false :: s.release.stk t) } (.calling t) := by
  have hp : p = .live := by
    cases p <;> first | rfl | (exfalso; fields; clear h; grind)
  subst hp
  have hq := h.p1 rfl
  have hT := userTop_nTop _ hu (h.tl t)
  simp only [nTop] at hT
  simp only [St.lockable, Bool.or_eq_true, beq_iff_eq] at hl
  have hdep : s.depth = nOwn (s.stk t) ∧ s.frames = ids (s.stk t) := by
    rcases hl with hl | hl
    · have a := h.dep0 hl; have b := h.notown t (by simp [hl]); have c := ids_nil _ b.1
      rw [a.1, a.2, b.1, c]; simp
    · have a := h.dep t hl; have b := h.fr t hl; exact ⟨by omega, b⟩
  have hfl : s.frames.length = nOwn (s.stk t) := by rw [hdep.2, nOwn_ids]
  have hno : ∀ u, u ≠ t → nOwn (s.stk u) = 0 ∧ nEmit (s.stk u) = 0 := by
    intro u hu; apply h.notown; rcases hl with hl | hl <;> simp [hl, Ne.symm hu]
  have hE : ∀ u, nEmit (s.stk u) = 0 := by
    intro u; by_cases e : u = t
    · rw [e]; exact hb
    · exact (hno u e).2
  have hown : ∀ u, nOwn ((s.stk u).map (relRec s.frames)) = 0 := by
    intro u
    apply rel_nOwn
    intro i hi
    by_cases e : u = t
    · subst e; rw [hdep.2]; exact hi
    · rw [ids_nil _ (hno u e).1] at hi; cases hi
  have hids : ∀ u, ids ((s.stk u).map (relRec s.frames)) = [] := fun u => ids_nil _ (hown u)
  have hst : ∀ u, nSt ((s.stk u).map (relRec s.frames)) = 0 := fun u => by
    have := nSt_le ((s.stk u).map (relRec s.frames)); have := hown u; omega
  have hcnt := fun u => rel_cnt s.frames (s.stk u)
  have htl := fun u => rel_tail s.frames (s.stk u)
  have hpu : ∀ u, nPU ((s.stk u).map (relRec s.frames)) = 0 := by
    intro u
    have a := nPU_le ((s.stk u).map (relRec s.frames)); have b := hcnt u
    have c := nPost_le (s.stk u); have d := h.pu u
    by_cases e : u = t
    · subst e; omega
    · have := hno u e; omega
  have htop : nTop ((s.stk t).map (relRec s.frames)) = 0 := by have := hcnt t; simp only [nTop]; omega
  simp only [St.release, St.unlock, St.touch]
  have hd0 : s.depth - s.frames.length = 0 := by omega
  simp only [hd0, if_true]
  generalize hg : (fun u => (s.stk u).map (relRec s.frames)) = g
  have hge : ∀ u, (s.stk u).map (relRec s.frames) = g u := fun u => by rw [← hg]
  simp only [hge] at *
  constructor <;> simp only
  case bad => simp [h.bad, hq.2.1]
  case asrt => exact h.asrt
  case tl =>
    intro u
    by_cases e : u = t
    · simp [upd, e, nTail, htop]
    · have a := htl u; have b := h.tl u; simp only [upd, if_neg e]; rw [← b, ← a]
  all_goals
    fields
    clear h
    first
      | assumption
      | gr
      | skip

theorem inv_reset_call (s : St) (p : Ph) (t : Nat) (rest : List Rec) (h : InvP s p) (hst : s.stk t = .call false :: rest)
    (hf : cbFree s.cb t = true) : InvP { s.touch with cb := .off, stk := upd s.stk t (.call true :: rest) } p := by
  have hp : p = .calling t := by
    by_cases hp : p = .calling t
    · exact hp
    · have := h.nc0 t hp; rw [hst] at this; simp [nCall0] at this
  subst hp
  have hq := h.p2 t rfl
  have hself := h.self t (by rw [hst]; simp [nCall0]; omega)
  have hnr : ∀ u, s.cb ≠ .running u := by
    intro u hu; rw [hu] at hf hself; simp [cbFree] at hf; subst hf; exact hself rfl
  constructor <;> simp only [St.touch]
  case bad => simp [h.bad, hq.2.1]
  case asrt => exact h.asrt
  case offS => simp
  case st0 => intro u hu; exact absurd hu (by have := nSt_le (s.stk u); have := hq.2.2.2.2 u; clear h; gr)
  all_goals
    fields
    clear h
    first
      | assumption
      | gr
      | skip

theorem inv_reset_fin (s : St) (p : Ph) (t : Nat) (rest : List Rec) (h : InvP s p) (hst : s.stk t = .fin false :: rest)
    (hf : cbFree s.cb t = true) : InvP { s.touch with cb := .off, stk := upd s.stk t (.fin true :: rest) } p := by
  have hp : p = .finishing t := by
    by_cases hp : p = .finishing t
    · exact hp
    · have := h.nf0 t hp; rw [hst] at this; simp [nFin0] at this
  subst hp
  have hq := h.p5 t rfl
  have hself := h.self t (by rw [hst]; simp [nFin0]; omega)
  have hnr : ∀ u, s.cb ≠ .running u := by
    intro u hu; rw [hu] at hf hself; simp [cbFree] at hf; subst hf; exact hself rfl
  constructor <;> simp only [St.touch]
  case bad => simp [h.bad, hq.2.1]
  case asrt => exact h.asrt
  case offS => simp
  case st0 => intro u hu; exact absurd hu (by have := nSt_le (s.stk u); have := hq.2.2.2.2.1 u; clear h; gr)
  all_goals
    fields
    clear h
    first
      | assumption
      | gr
      | skip

theorem expected_call (th : List Nat) (conv : Bool) : Expected .called th (sigOf th.head? true conv) := by
  cases th with
  | cons e es => exact .error _ _ _
  | nil => cases conv <;> constructor
theorem expected_drop (th : List Nat) : Expected .dropped th (sigOf th.head? false false) := by
  cases th with
  | cons e es => exact .error _ _ _
  | nil => constructor

theorem inv_complete_call (s : St) (p : Ph) (t : Nat) (conv : Bool) (rest : List Rec) (h : InvP s p)
    (hst : s.stk t = .call true :: rest) :
    InvP { s.touch with done := s.done ++ [sigOf s.ex true conv], alive := false, stk := upd s.stk t rest } .called := by
  have hp : p = .calling t := by
    by_cases hp : p = .calling t
    · exact hp
    · have := h.nc0 t hp; rw [hst] at this; simp [nCall1] at this
  subst hp
  have hq := h.p2 t rfl
  have hcb := h.off1 t (by rw [hst]; simp [nCall1]; omega)
  have hex := expected_call s.thrown conv
  rw [← h.exq hq.2.2.1] at hex
  constructor <;> simp only [St.touch]
  case bad => simp [h.bad, hq.2.1]
  case asrt => exact h.asrt
  case offS => simp
  case exq => simp
  case tl => exact tl_pop h.tl hst
  case p3 =>
    intro _; rw [hq.1, hq.2.2.1, hq.2.2.2.1]; refine ⟨rfl, trivial, rfl, ⟨_, rfl, hex⟩, ?_, hcb⟩
    have := hq.2.2.2.2; clear h; gr
  all_goals
    fields
    clear h
    first
      | assumption
      | gr
      | skip

theorem inv_complete_fin (s : St) (p : Ph) (t : Nat) (rest : List Rec) (h : InvP s p)
    (hst : s.stk t = .fin true :: rest) :
    InvP { s.touch with done := s.done ++ [sigOf s.ex false false], alive := false, stk := upd s.stk t rest } .dropped := by
  have hp : p = .finishing t := by
    by_cases hp : p = .finishing t
    · exact hp
    · have := h.nf0 t hp; rw [hst] at this; simp [nFin1] at this
  subst hp
  have hq := h.p5 t rfl
  have hcb := h.off1 t (by rw [hst]; simp [nFin1]; omega)
  have hex := expected_drop s.thrown
  rw [← h.exq hq.2.2.1] at hex
  constructor <;> simp only [St.touch]
  case bad => simp [h.bad, hq.2.1]
  case asrt => exact h.asrt
  case offS => simp
  case exq => simp
  case tl => exact tl_pop h.tl hst
  case p6 =>
    intro _; rw [hq.1, hq.2.2.1, hq.2.2.2.1]; refine ⟨rfl, trivial, rfl, ⟨_, rfl, hex⟩, ?_, hcb, ?_⟩
    · have := hq.2.2.2.2.1; clear h; gr
    · have := hq.2.2.2.2.2; clear h; gr
  all_goals
    fields
    clear h
    first
      | assumption
      | gr
      | skip

end Verif.Asio
