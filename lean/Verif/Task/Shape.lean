import Verif.Task.Step
namespace Verif.Task
set_option maxHeartbeats 4000000

/-- Frames keep their scheduler and continuation. -/
def Same (s s' : St) : Prop := s'.n = s.n ∧ ∀ j, (s'.fr j).sch = (s.fr j).sch ∧ (s'.fr j).parent = (s.fr j).parent

theorem Same.rfl (s : St) : Same s s := ⟨Eq.refl _, fun _ => ⟨Eq.refl _, Eq.refl _⟩⟩

theorem Same.trans {s s' s'' : St} (h : Same s s') (h' : Same s' s'') : Same s s'' :=
  ⟨h'.1.trans h.1, fun j => ⟨(h'.2 j).1.trans (h.2 j).1, (h'.2 j).2.trans (h.2 j).2⟩⟩

theorem same_set {s s' : St} (i : Nat) (f : Fr) (hn : s'.n = s.n) (hf : s'.fr = upd s.fr i f)
    (h1 : f.sch = (s.fr i).sch) (h2 : f.parent = (s.fr i).parent) : Same s s' := by
  refine ⟨hn, ?_⟩
  intro j; rw [hf]; simp only [upd]; split
  · rename_i he; subst he; exact ⟨h1, h2⟩
  · exact ⟨rfl, rfl⟩

theorem same_destroy (s : St) (i : Nat) : Same s (destroy s i) := by
  unfold destroy
  split
  · rename_i c _
    refine ⟨rfl, ?_⟩
    intro j; simp only [upd]; split
    · rename_i he; subst he; exact ⟨rfl, rfl⟩
    · split
      · rename_i he; subst he; exact ⟨rfl, rfl⟩
      · exact ⟨rfl, rfl⟩
  · exact same_set i _ rfl rfl rfl rfl

theorem same_drop (s : St) (i : Nat) : Same s (drop s i) :=
  Same.trans (s' := setFr s i { s.fr i with owns := false })
    (same_set i { s.fr i with owns := false } rfl rfl rfl rfl) (same_destroy _ i)

theorem same_cont (s : St) (i : Nat) (o : Out) : Same s (continueParent s i o) := by
  unfold continueParent
  split
  · rename_i p _
    refine ⟨rfl, ?_⟩
    intro j; simp only [upd]; split
    · rename_i he; subst he; exact ⟨rfl, rfl⟩
    · split
      · rename_i he; subst he; exact ⟨rfl, rfl⟩
      · exact ⟨rfl, rfl⟩
  · exact same_set i _ rfl rfl rfl rfl

theorem cont_top (s : St) (i : Nat) (o : Out) {j : Nat} (h : top (continueParent s i o).ctl = some j) :
    (s.fr i).parent = some j := by
  unfold continueParent at h
  split at h
  · rename_i p hp; simp only [top, Option.some.injEq] at h; rw [hp, h]
  · simp [top] at h

theorem cont_ctx (s : St) (i : Nat) (o : Out) : (continueParent s i o).ctx = s.ctx := by
  unfold continueParent; split <;> rfl

/-- What a step does to the shape of the chain. -/
theorem shape {s s' : St} {a : Act} (hs : step s a = some s') :
    (Same s s' ∧ (∀ j, top s'.ctl = some j → top s.ctl = some j ∨ ∃ i, top s.ctl = some i ∧ (s.fr i).parent = some j)) ∨
    (∃ i c b k, s.ctl = .run i ∧ (s.fr i).body = .call c b k ∧
      s' = { newTask s i c b k with bad := s.bad || !(s.fr i).alive }) := by
  cases a with
  | exec =>
    simp only [step] at hs
    split at hs
    · rename_i i hc; cases hs; left
      unfold register; split
      · exact ⟨same_set i _ rfl rfl rfl rfl, fun j hj => .inl (by rw [hc]; exact hj)⟩
      · exact ⟨Same.rfl _, fun j hj => .inl (by rw [hc]; exact hj)⟩
    · rename_i i hc; cases hs
      unfold runBody; split
      · left; exact ⟨same_set i _ rfl rfl rfl rfl, fun j hj => .inl (by rw [hc]; exact hj)⟩
      · left; exact ⟨same_set i _ rfl rfl rfl rfl, fun j hj => .inl (by rw [hc]; exact hj)⟩
      · left; exact ⟨same_set i _ rfl rfl rfl rfl, fun j hj => .inl (by rw [hc]; exact hj)⟩
      · left; exact ⟨same_set i _ rfl rfl rfl rfl, fun j hj => .inl (by rw [hc]; exact hj)⟩
      · rename_i c b k hb
        right; exact ⟨i, c, b, k, hc, hb, rfl⟩
    · rename_i i hc; left
      split at hs
      · cases hs; exact ⟨Same.rfl _, fun j hj => .inl (by rw [hc]; exact hj)⟩
      · split at hs
        · cases hs
        · cases hs; exact ⟨same_set i _ rfl rfl rfl rfl, fun j hj => .inl (by rw [hc]; exact hj)⟩
    · rename_i i hc; left
      split at hs
      · cases hs
      · cases hs; exact ⟨same_set i _ rfl rfl rfl rfl, fun j hj => .inl (by rw [hc]; exact hj)⟩
    · rename_i i hc; cases hs; left
      have htop : top s.ctl = some i := by rw [hc]; rfl
      unfold canceled; split
      · rename_i p hp
        refine ⟨same_drop s i, fun j hj => .inr ⟨i, htop, ?_⟩⟩
        simp only [top, Option.some.injEq] at hj; rw [hp, hj]
      · refine ⟨Same.trans (same_drop s i) (same_cont _ i _), fun j hj => .inr ⟨i, htop, ?_⟩⟩
        have := cont_top _ _ _ hj
        rw [← ((same_drop s i).2 i).2]; exact this
    · rename_i i hc; cases hs; left
      have htop : top s.ctl = some i := by rw [hc]; rfl
      unfold awaitResume; split
      · refine ⟨Same.trans (same_drop s i) (same_cont _ i _), fun j hj => .inr ⟨i, htop, ?_⟩⟩
        have := cont_top _ _ _ hj
        rw [← ((same_drop s i).2 i).2]; exact this
      · refine ⟨Same.trans (same_drop s i) (same_cont _ i _), fun j hj => .inr ⟨i, htop, ?_⟩⟩
        have := cont_top _ _ _ hj
        rw [← ((same_drop s i).2 i).2]; exact this
    · cases hs
  | regThrows e =>
    left
    simp only [step] at hs
    split at hs
    case h_2 => cases hs
    rename_i i hc
    have htop : top s.ctl = some i := by rw [hc]; rfl
    split at hs
    case isFalse => cases hs
    cases hs
    refine ⟨Same.trans (same_drop s i) (same_cont _ i _), fun j hj => .inr ⟨i, htop, ?_⟩⟩
    have := cont_top (drop s i) i (.error e) (j := j) hj
    rw [← ((same_drop s i).2 i).2]; exact this
  | leaf o x ins =>
    left
    simp only [step] at hs
    split at hs
    case h_2 => cases hs
    rename_i i aff hc
    split at hs
    case isFalse => cases hs
    cases hs
    refine ⟨same_set i { s.fr i with body := (s.fr i).k o } rfl rfl rfl rfl, fun j hj => .inl ?_⟩
    rw [hc]
    have hj' : top (if o = .stopped then Ctl.cancel i else .run i) = some j := hj
    by_cases ho : o = .stopped <;> simp [ho, top] at hj' ⊢ <;> exact hj'
  | stop =>
    left
    simp only [step] at hs
    split at hs
    case isFalse => cases hs
    cases hs; exact ⟨Same.rfl _, fun j hj => .inl hj⟩
  | enter i =>
    left
    simp only [step] at hs
    split at hs
    case h_2 => cases hs
    split at hs
    case isFalse => cases hs
    cases hs; exact ⟨same_set i _ rfl rfl rfl rfl, fun j hj => .inl hj⟩
  | ret =>
    left
    simp only [step] at hs
    split at hs
    case h_2 => cases hs
    split at hs
    case isFalse => cases hs
    cases hs; exact ⟨Same.rfl _, fun j hj => .inl hj⟩

/-- The execution context changes only when an awaited sender completes. -/
theorem ctx_step {s s' : St} {a : Act} (hs : step s a = some s') :
    s'.ctx = s.ctx ∨ ∃ i aff x, s.ctl = .sus i aff ∧
      s'.ctx = if (s.fr i).cfg.inl then x else if aff then s.ctx else (s.fr i).sch := by
  have hd : ∀ i, (destroy (setFr s i { s.fr i with owns := false }) i).ctx = s.ctx := fun i => by
    unfold destroy; split <;> rfl
  cases a <;> simp only [step] at hs
  case exec =>
    left
    split at hs
    · cases hs; unfold register; split <;> rfl
    · cases hs; unfold runBody; split <;> rfl
    · split at hs
      · cases hs; rfl
      · split at hs
        · cases hs
        · cases hs; rfl
    · split at hs
      · cases hs
      · cases hs; rfl
    · cases hs; unfold canceled; split
      · exact hd _
      · rw [cont_ctx]; exact hd _
    · cases hs; unfold awaitResume; split
      · rw [cont_ctx]; exact hd _
      · rw [cont_ctx]; exact hd _
    · cases hs
  case leaf o x ins =>
    right
    split at hs
    case h_2 => cases hs
    rename_i i aff hc
    split at hs
    case isFalse => cases hs
    cases hs
    exact ⟨i, aff, x, hc, rfl⟩
  case regThrows e =>
    left
    split at hs
    case h_2 => cases hs
    split at hs
    case isFalse => cases hs
    cases hs
    exact (cont_ctx _ _ _).trans (hd _)
  all_goals
    left
    repeat' split at hs
    all_goals first
      | (cases hs; done)
      | (cases hs; rfl)

end Verif.Task
