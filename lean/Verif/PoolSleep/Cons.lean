import Verif.PoolSleep.InvStep
/-! # A pool worker's queues — no task is lost or duplicated -/
namespace Verif.PoolSleep

/-- Number of copies of `x` waiting in the remote queues. -/
def St.inRemote (s : St) (x : Task) : Nat := lsum (fun l => l.count x) s.remote s.regs

/-- Everything handed to the worker is somewhere. -/
def Cons (s : St) : Prop := ∀ x, s.subm.count x =
  s.inRemote x + s.pending.count x + s.loc.count x + s.wpc.acc.count x + s.done.count x +
    s.stolen.count x

theorem inRemote_drain {s : St} (h : Inv s) (q : Nat) (x : Task) :
    lsum (fun l => l.count x) (upd s.remote q []) s.regs + (s.remote q).count x = s.inRemote x := by
  by_cases hq : q ∈ s.regs
  · have := lsum_upd_in (fun l : List Task => l.count x) s.remote (b := []) h.nodup hq
    simpa [St.inRemote] using this
  · have : s.remote q = [] := by
      by_cases e : s.remote q = []
      · exact e
      · exact absurd (h.reg q e) hq
    rw [lsum_upd_notin _ _ hq, this]; simp [St.inRemote]

theorem inRemote_add {s : St} (h : Inv s) (q : Nat) (xs : List Task) (hq : q ∈ s.regs) (x : Task) :
    lsum (fun l => l.count x) (upd s.remote q (xs ++ s.remote q)) s.regs = s.inRemote x + xs.count x := by
  have := lsum_upd_in (fun l : List Task => l.count x) s.remote (b := xs ++ s.remote q) h.nodup hq
  simp only [List.count_append, St.inRemote] at this ⊢; omega

theorem afterNone_acc (m : Mode) : (afterNone m).acc = [] := by cases m <;> rfl

theorem count_getLast {l : List Task} {y : Task} (h : l.getLast? = some y) (x : Task) :
    l.count x = l.dropLast.count x + [y].count x := by
  have : l = l.dropLast ++ [y] := by
    have hne : l ≠ [] := by rintro rfl; simp at h
    rw [List.getLast?_eq_some_getLast hne] at h
    injection h with h
    rw [← h, List.dropLast_concat_getLast]
  conv => lhs; rw [this]
  rw [List.count_append]

theorem count_eraseIdx {l : List Task} {i : Nat} {y : Task} (h : l[i]? = some y) (x : Task) :
    l.count x = (l.eraseIdx i).count x + [y].count x := by
  induction l generalizing i with
  | nil => simp at h
  | cons a l ih =>
    cases i with
    | zero => simp at h; subst h; simp [List.count_cons]
    | succ i =>
      simp only [List.getElem?_cons_succ] at h
      have := ih h
      simp only [List.eraseIdx_cons_succ, List.count_cons] at *; omega

theorem cons_step {s s' : St} (a : Act) (h : Inv s) (hc : Cons s) (hs : step s a = some s') : Cons s' := by
  intro x
  have hc := hc x
  cases a with
  | reg q =>
    simp only [step] at hs
    split at hs <;> cases hs
    rename_i hq
    have : s.remote q = [] := by
      by_cases e : s.remote q = []
      · exact e
      · exact absurd (h.reg q e) hq
    simp only [St.inRemote, lsum, this] at hc ⊢; simpa using hc
  | push t q y =>
    simp only [step] at hs
    split at hs <;> cases hs
    rename_i hq
    have := inRemote_add h q [y] hq.2 x
    simp only [St.inRemote, List.singleton_append] at *
    rw [List.count_append]; omega
  | prepend t q ys =>
    simp only [step] at hs
    split at hs <;> cases hs
    rename_i hq
    have := inRemote_add h q ys hq.2 x
    simp only [St.inRemote] at *
    rw [List.count_append]; omega
  | poke t => simp only [step] at hs; split at hs <;> cases hs; exact hc
  | stop t => simp only [step] at hs; split at hs <;> cases hs; exact hc
  | n t =>
    simp only [step, nStep] at hs
    split at hs
    all_goals (try split at hs)
    all_goals (cases hs)
    all_goals (try exact hc)
    all_goals (rename_i ha; rw [ha] at hc; exact hc)
  | steal i =>
    simp only [step] at hs
    split at hs
    · split at hs <;> cases hs
      rename_i y hy _
      have := count_eraseIdx hy x
      simp only [St.inRemote, List.count_append] at *; omega
    · cases hs
  | pushLocal y acc =>
    simp only [step] at hs
    split at hs
    · split at hs
      · cases hs; simp only [St.inRemote, List.count_append] at *; omega
      · split at hs <;> cases hs
        simp only [St.inRemote, List.count_append] at *; omega
    · cases hs
  | pushLocalBulk ys =>
    simp only [step] at hs
    split at hs <;> cases hs
    simp only [St.inRemote, List.count_append] at *; omega
  | finish =>
    simp only [step] at hs; split at hs <;> cases hs
    rename_i hw
    rw [hw] at hc; exact hc
  | wAcc k =>
    simp only [step] at hs
    split at hs
    · rename_i m acc hw
      rw [hw] at hc
      simp only [WPc.acc] at hc
      split at hs
      · rename_i hp
        simp only [List.append_eq_nil_iff] at hp
        split at hs <;> cases hs
        simp only [St.inRemote, hp] at *
        cases m <;> simpa [afterNone, WPc.acc] using hc
      · split at hs <;> cases hs
        have e : ((s.pending ++ acc).take k).count x + ((s.pending ++ acc).drop k).count x
            = s.pending.count x + acc.count x := by
          rw [← List.count_append, List.take_append_drop, List.count_append]
        simp only [St.inRemote, List.count_append (l₁ := s.loc), WPc.acc, List.count_nil] at *; omega
    · cases hs
  | wTake y =>
    simp only [step] at hs
    split at hs <;> cases hs
    rename_i hw
    rw [hw] at hc
    simp only [St.inRemote, St.run, List.count_append, WPc.acc] at *; omega
  | wFail =>
    simp only [step] at hs; split at hs <;> cases hs
    rename_i hw
    rw [hw] at hc; exact hc
  | wake =>
    simp only [step] at hs; split at hs <;> cases hs
    rename_i hw
    rw [hw] at hc; exact hc
  | w =>
    simp only [step, wStep] at hs
    split at hs
    all_goals try (cases hs; done)
    all_goals (rename_i hw; rw [hw] at hc)
    · split at hs <;> cases hs
      · rename_i y hy
        have := count_getLast hy x
        simp only [St.inRemote, St.run, List.count_append, WPc.acc] at *; omega
      · exact hc
    · cases hs; exact hc
    · cases hs; exact hc
    · rename_i q l acc
      cases hs
      have := inRemote_drain h q x
      simp only [St.inRemote, List.count_append, List.count_reverse, WPc.acc] at *; omega
    · split at hs <;> cases hs <;> exact hc
    · cases hs; exact hc
    · rename_i q l acc
      cases hs
      have := inRemote_drain h q x
      simp only [St.inRemote, List.count_append, List.count_reverse, WPc.acc] at *; omega
    · split at hs
      · rename_i y hy
        have := count_getLast hy x
        split at hs <;> cases hs <;>
        (simp only [St.inRemote, St.run, List.count_append, WPc.acc] at *; omega)
      · cases hs
        rename_i m _ _
        have e := afterNone_acc m
        simp only [St.inRemote] at *
        rw [e]; exact hc
    · cases hs; exact hc
    · split at hs <;> cases hs; exact hc
    · split at hs <;> cases hs <;> exact hc
    · split at hs <;> cases hs <;> exact hc
    · cases hs; exact hc
    · cases hs; exact hc
    · split at hs <;> cases hs; exact hc
    · cases hs; exact hc
    · cases hs; exact hc

theorem cons_reach : ∀ s, Reach init step s → Cons s := by
  refine Reach.inv' _ ?_ (fun s a _ hr h e => cons_step a (inv_reach s hr) h e)
  intro x; simp [init, St.inRemote, lsum, WPc.acc]

end Verif.PoolSleep
