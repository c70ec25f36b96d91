import Verif.Pool.Model
/-! # The pool: projection to the workers, bookkeeping -/
namespace Verif.Pool
open Verif.PoolSleep (Task)

/-- How a step of one worker changes the ledgers. -/
theorem ledger {s s' : PoolSleep.St} {a : PoolSleep.Act} (ha : shared a = false) (hs : PoolSleep.step s a = some s') :
    s'.subm = s.subm ++ added s.subm s'.subm ∧ s'.done = s.done ++ added s.done s'.done ∧ s'.stolen = s.stolen ∧ s'.regs = s.regs := by
  cases a <;> simp only [shared] at ha <;>
    simp only [PoolSleep.step, PoolSleep.wStep, PoolSleep.nStep, PoolSleep.St.run] at hs <;> (repeat' split at hs) <;>
    first
      | (cases ha; done)
      | (cases hs; done)
      | (cases hs; simp [added])

theorem ledger_steal {s s' : PoolSleep.St} {k : Nat} (hs : PoolSleep.step s (.steal k) = some s') :
    s'.subm = s.subm ∧ s'.done = s.done ∧ s'.regs = s.regs ∧ ∃ x, s.loc[k]? = some x ∧ s'.stolen = s.stolen ++ [x] := by
  simp only [PoolSleep.step] at hs
  split at hs
  · rename_i x hx
    split at hs
    · cases hs; exact ⟨rfl, rfl, rfl, x, hx, rfl⟩
    · cases hs
  · cases hs

theorem ledger_take {s s' : PoolSleep.St} {x : Task} (hs : PoolSleep.step s (.wTake x) = some s') :
    s'.subm = s.subm ++ [x] ∧ s'.done = s.done ++ [x] ∧ s'.stolen = s.stolen ∧ s'.regs = s.regs := by
  simp only [PoolSleep.step, PoolSleep.St.run] at hs
  split at hs
  · cases hs; exact ⟨rfl, rfl, rfl, rfl⟩
  · cases hs

/-- Executions by `i` of tasks it stole. -/
def taken (i : Nat) (x : Task) (l : List (Nat × Nat × Task)) : Nat :=
  l.countP (fun e => e.1 == i && e.2.1 != i && e.2.2 == x)

/-- Executions of `x` with tid `i`. -/
def execs (i : Nat) (x : Task) (l : List (Nat × Nat × Task)) : Nat := l.countP (fun e => e.2.1 == i && e.2.2 == x)

structure Inv (N : Nat) (s : St) : Prop where
  wr : ∀ i, Reach PoolSleep.init PoolSleep.step (s.w i)
  rg : ∀ i j, i < N → j < N → (s.w i).regs = (s.w j).regs
  sub : ∀ i x, (s.w i).subm.count x = s.submitted.count (i, x) + taken i x s.log
  ex : ∀ i x, (s.w i).done.count x + (s.w i).stolen.count x = execs i x s.log + taken i x s.log

theorem inv_init (N : Nat) : Inv N init :=
  ⟨fun _ => .refl, fun _ _ _ _ => rfl, fun _ _ => rfl, fun _ _ => rfl⟩

theorem count_map_pair (i j : Nat) (x : Task) (l : List Task) :
    (l.map (fun y => (j, y))).count (i, x) = if j = i then l.count x else 0 := by
  induction l with
  | nil => simp
  | cons a l ih =>
      rw [List.map_cons, List.count_cons, List.count_cons, ih]
      by_cases h1 : j = i
      · subst h1; simp
      · simp [h1]

theorem taken_own (i j : Nat) (x : Task) (l : List Task) : taken i x (l.map (fun y => (j, j, y))) = 0 := by
  unfold taken
  rw [List.countP_eq_zero]
  intro e he
  simp only [List.mem_map] at he
  obtain ⟨y, _, rfl⟩ := he
  by_cases h : j = i <;> simp [h]

theorem execs_own (i j : Nat) (x : Task) (l : List Task) :
    execs i x (l.map (fun y => (j, j, y))) = if j = i then l.count x else 0 := by
  unfold execs
  induction l with
  | nil => simp
  | cons a l ih =>
      rw [List.map_cons, List.countP_cons, List.count_cons, ih]
      by_cases h1 : j = i
      · subst h1; simp
      · simp [h1]

theorem taken_append (i : Nat) (x : Task) (l m : List (Nat × Nat × Task)) : taken i x (l ++ m) = taken i x l + taken i x m := by
  simp [taken, List.countP_append]
theorem execs_append (i : Nat) (x : Task) (l m : List (Nat × Nat × Task)) : execs i x (l ++ m) = execs i x l + execs i x m := by
  simp [execs, List.countP_append]

/-- Registering a queue is a step of every worker. -/
theorem reg_step {s : PoolSleep.St} {q : Nat} (h : q ∉ s.regs) :
    PoolSleep.step s (.reg q) = some { s with regs := q :: s.regs } := by simp [PoolSleep.step, h]

theorem inv_step {N : Nat} {s s' : St} (a : Act) (h : Inv N s) (hs : step N s a = some s') : Inv N s' := by
  cases a with
  | on i a =>
      simp only [step] at hs
      split at hs
      · rename_i hg
        split at hs
        · cases hs
        · rename_i w' hw
          cases hs
          obtain ⟨e1, e2, e3, e4⟩ := ledger hg.2 hw
          refine ⟨fun j => ?_, fun j k hj hk => ?_, fun j x => ?_, fun j x => ?_⟩
          · simp only [upd_apply]; split
            · exact .tail a (h.wr i) hw
            · exact h.wr j
          · have hr : ∀ j, (upd s.w i w' j).regs = (s.w j).regs := by
              intro j; simp only [upd_apply]; split
              · subst_vars; exact e4
              · rfl
            simp only [hr]; exact h.rg j k hj hk
          · have := h.sub j x
            simp only [List.count_append, count_map_pair, taken_append, taken_own]
            by_cases hj : i = j
            · subst hj; simp only [upd_same, if_true]
              have e := congrArg (List.count x) e1; rw [List.count_append] at e; omega
            · rw [upd_other _ _ (Ne.symm hj)]; simp [hj]; exact this
          · have := h.ex j x
            simp only [execs_append, execs_own, taken_append, taken_own]
            by_cases hj : i = j
            · subst hj; simp only [upd_same, if_true]
              have e := congrArg (List.count x) e2; rw [List.count_append] at e; rw [e3]; omega
            · rw [upd_other _ _ (Ne.symm hj)]; simp [hj]; exact this
      · cases hs
  | reg q =>
      simp only [step] at hs
      split at hs
      · cases hs
      · rename_i hg
        cases hs
        have hq : ∀ i, i < N → q ∉ (s.w i).regs := fun i hi hm => hg ⟨i, hi, hm⟩
        refine ⟨fun j => ?_, fun j k hj hk => ?_, fun j x => ?_, fun j x => ?_⟩
        · simp only; split
          · rename_i hj; exact .tail _ (h.wr j) (reg_step (hq j hj))
          · exact h.wr j
        · simp only [hj, hk, if_true, h.rg j k hj hk]
        · have := h.sub j x; simp only; split <;> exact this
        · have := h.ex j x; simp only; split <;> exact this
  | thief u v k =>
      simp only [step] at hs
      split at hs
      · rename_i hg
        obtain ⟨hu, hv, huv⟩ := hg
        split at hs
        · rename_i x v' hx hst
          split at hs
          · rename_i u' htk
            cases hs
            obtain ⟨a1, a2, a3, y, hy, a4⟩ := ledger_steal hst
            rw [hx] at hy; cases hy
            obtain ⟨b1, b2, b3, b4⟩ := ledger_take htk
            refine ⟨fun j => ?_, fun j k hj hk => ?_, fun j z => ?_, fun j z => ?_⟩
            · simp only [upd_apply]; split
              · exact .tail _ (h.wr u) htk
              · split
                · exact .tail _ (h.wr v) hst
                · exact h.wr j
            · have hr : ∀ j, (upd (upd s.w v v') u u' j).regs = (s.w j).regs := by
                intro j; simp only [upd_apply]; split
                · subst_vars; exact b4
                · split
                  · subst_vars; exact a3
                  · rfl
              simp only [hr]; exact h.rg j k hj hk
            · have := h.sub j z
              simp only [taken_append]
              by_cases hju : j = u
              · subst hju
                simp only [upd_same, b1, List.count_append]
                by_cases hz : x = z
                · subst hz; simp [taken, Ne.symm huv] at *; omega
                · simp [taken, hz] at *; omega
              · rw [upd_other _ _ hju]
                have ht0 : taken j z [(u, v, x)] = 0 := by simp [taken, Ne.symm hju]
                by_cases hjv : j = v
                · subst hjv; rw [upd_same, a1]; omega
                · rw [upd_other _ _ hjv]; omega
            · have := h.ex j z
              simp only [taken_append, execs_append]
              by_cases hju : j = u
              · subst hju
                simp only [upd_same, b2, b3, List.count_append]
                have he0 : execs j z [(j, v, x)] = 0 := by simp [execs, Ne.symm huv]
                by_cases hz : x = z
                · subst hz; simp [taken, Ne.symm huv] at *; omega
                · simp [taken, hz] at *; omega
              · rw [upd_other _ _ hju]
                have ht0 : taken j z [(u, v, x)] = 0 := by simp [taken, Ne.symm hju]
                by_cases hjv : j = v
                · subst hjv
                  rw [upd_same, a2, a4, List.count_append]
                  by_cases hz : x = z
                  · subst hz; simp [execs] at *; omega
                  · simp [execs, hz] at *; omega
                · rw [upd_other _ _ hjv]
                  have he0 : execs j z [(u, v, x)] = 0 := by simp [execs, Ne.symm hjv]
                  omega
          · cases hs
        · cases hs
      · cases hs

theorem inv_reach {N : Nat} {s : St} (h : Reachable N s) : Inv N s :=
  Reach.inv (Inv N) (inv_init N) (fun _ a _ hi he => inv_step a hi he) s h

end Verif.Pool
