import Verif.Sender.Safe
/-! # Nothing terminates the program (proof tool for C29) -/
namespace Verif.Sender

/-! ### no terminating call -/

macro "tmdone" : tactic => `(tactic| exact clean_done BadTerm (by simp [BadTerm]))

theorem clean_term_fwd {e n c z} : CleanN BadTerm e n (.inl (.compl c [.fwd] z)) := by
  refine clean_compl BadTerm (by simp [BadTerm, TermCause]) ?_
  intro l t h; cases h; tmdone

theorem clean_term_round {e : Env} {s : S} (hs : CleanS BadTerm e s) (hct : ¬ ConnectTerminates s) : CleanS BadTerm e (.seq .tramp s) := by
  intro x n
  refine clean_start BadTerm (by simp [BadTerm]) ?_
  intro l it h; cases h
  refine clean_under BadTerm badTerm_app (s := .tramp) ?_ fun l c z hr => ?_
  · intro x n
    refine clean_start BadTerm (by simp [BadTerm]) ?_
    intro l it h; cases h <;> tmdone
  · refine clean_compl BadTerm (fun h => hct (connectTerminates_of h.2)) ?_
    intro l t h
    cases h with
    | seqOk _ _ => exact clean_under BadTerm badTerm_app hs fun _ _ _ _ => clean_term_fwd
    | _ => tmdone

theorem clean_term_repN {e : Env} {s : S} (hs : CleanS BadTerm e s) (hct : ¬ ConnectTerminates s) : ∀ (n m x : Nat),
    CleanN BadTerm e n (.inl (.start (.seq .tramp s) [.repN m s] x)) := by
  intro n
  induction n using Nat.strongRecOn with
  | _ n ihn =>
    intro m x
    refine clean_under BadTerm badTerm_app (clean_term_round hs hct) fun l c z _ => ?_
    cases n with
    | zero =>
        intro k l b hk ht hb
        obtain rfl : k = 0 := by omega
        cases ht; simp [BadTerm, TermCause] at hb
    | succ n =>
      refine clean_compl BadTerm (by simp [BadTerm, TermCause]) ?_
      intro l t h
      cases h with
      | repNMore _ _ _ _ => exact ihn n (by omega) (m - 1) _
      | _ => tmdone

theorem clean_term_repU {e : Env} {s : S} (hs : CleanS BadTerm e s) (hct : ¬ ConnectTerminates s) :
    ∀ (n x : Nat), CleanN BadTerm e n (.inl (.start (.seq .tramp s) [.repU s] x)) := by
  intro n
  induction n using Nat.strongRecOn with
  | _ n ihn =>
    intro x
    refine clean_under BadTerm badTerm_app (clean_term_round hs hct) fun l c z _ => ?_
    cases n with
    | zero =>
        intro k l b hk ht hb
        obtain rfl : k = 0 := by omega
        cases ht; simp [BadTerm, TermCause] at hb
    | succ n =>
      refine clean_compl BadTerm (by simp [BadTerm, TermCause]) ?_
      intro l t h
      cases h with
      | repUMore _ _ _ => exact ihn n (by omega) _
      | _ => tmdone

theorem clean_term : ∀ (s : S) (e : Env), NoTerm s → CleanS BadTerm e s := by
  intro s
  induction s with
  | leaf lf => intro e _ x n; exact clean_leaf BadTerm (by simp [BadTerm]) (by simp [BadTerm]) (by simp [BadTerm])
  | just c =>
      intro e _ x n
      refine clean_start BadTerm (by simp [BadTerm]) ?_
      intro l it h; cases h; tmdone
  | tramp =>
      intro e _ x n
      refine clean_start BadTerm (by simp [BadTerm]) ?_
      intro l it h; cases h <;> tmdone
  | readEnv q =>
      intro e hw x n
      refine clean_start BadTerm (by simp [BadTerm]) ?_
      intro l it h; cases h; tmdone
  | writeEnv q v s ih =>
      intro e hw x n
      refine clean_start BadTerm (by simp [BadTerm]) ?_
      intro l it h; cases h
      refine clean_under BadTerm badTerm_app (ih _ hw) fun l c z _ => ?_
      refine clean_compl BadTerm (by simp [BadTerm, TermCause]) ?_
      intro l t h; cases h; tmdone
  | upon ch f s ih =>
      intro e hw x n
      refine clean_start BadTerm (by simp [BadTerm]) ?_
      intro l it h; cases h
      refine clean_under BadTerm badTerm_app (ih _ hw.1) fun l c z _ => ?_
      refine clean_compl BadTerm ?_ ?_
      · rintro ⟨_, hn, ex, hr⟩; obtain ⟨r, hr'⟩ := hw.2 _ hn; rw [hr] at hr'; cases hr'
      intro l t h; cases h <;> tmdone
  | letc ch f k s ihk ih =>
      intro e hw x n
      refine clean_start BadTerm (by simp [BadTerm]) ?_
      intro l it h; cases h
      refine clean_under BadTerm badTerm_app (ih _ hw.1) fun l c z hr => ?_
      refine clean_compl BadTerm ?_ ?_
      · rintro ⟨_, ⟨hn, ex, hr⟩ | ⟨_, ht⟩⟩
        · rw [hw.2.1 _ hn] at hr; cases hr
        · exact (hw.2.2 _).2 (connectTerminates_of ht)
      intro l t h
      cases h with
      | letOk _ _ _ hc _ =>
          exact clean_under BadTerm badTerm_app (ihk _ _ (hw.2.2 c.args).1) fun _ _ _ _ => clean_term_fwd
      | _ => tmdone
  | contOn lf s ih =>
      intro e hw x n
      refine clean_start BadTerm (by simp [BadTerm]) ?_
      intro l it h; cases h
      refine clean_under BadTerm badTerm_app (ih _ hw) fun l c z hr => ?_
      refine clean_compl BadTerm (by simp [BadTerm, TermCause]) ?_
      intro l t h
      cases h with
      | contOk _ =>
          refine clean_under BadTerm badTerm_app (fun _ _ => clean_leaf BadTerm (by simp [BadTerm]) (by simp [BadTerm])
            (by simp [BadTerm])) fun _ _ _ _ => ?_
          refine clean_compl BadTerm (by simp [BadTerm, TermCause]) ?_
          intro l t h; cases h <;> tmdone
      | _ => tmdone
  | fin a b iha ihb =>
      intro e hw x n
      refine clean_start BadTerm (by simp [BadTerm]) ?_
      intro l it h; cases h
      refine clean_under BadTerm badTerm_app (iha _ hw.1) fun l c z hr => ?_
      refine clean_compl BadTerm (by simp [BadTerm, TermCause]) ?_
      intro l t h
      generalize sendsValue (sigs (envOf e []) b) = sv at h
      cases h with
      | finOk _ =>
          refine clean_under BadTerm badTerm_app (ihb _ hw.2) fun _ _ _ _ => ?_
          refine clean_compl BadTerm (by simp [BadTerm, TermCause]) ?_
          intro l t h; cases h <;> tmdone
      | _ => tmdone
  | seq a b iha ihb =>
      intro e hw x n
      refine clean_start BadTerm (by simp [BadTerm]) ?_
      intro l it h; cases h
      refine clean_under BadTerm badTerm_app (iha _ hw.1) fun l c z hr => ?_
      refine clean_compl BadTerm (fun h => hw.2.2 (connectTerminates_of h.2)) ?_
      intro l t h
      cases h with
      | seqOk _ _ => exact clean_under BadTerm badTerm_app (ihb _ hw.2.1) fun _ _ _ _ => clean_term_fwd
      | _ => tmdone
  | sao s ih =>
      intro e hw x n
      refine clean_start BadTerm (by simp [BadTerm]) ?_
      intro l it h; cases h
      refine clean_under BadTerm badTerm_app (ih _ hw) fun l c z _ => ?_
      refine clean_compl BadTerm (by simp [BadTerm, TermCause]) ?_
      intro l t h; cases h <;> tmdone
  | ivar s ih =>
      intro e hw x n
      refine clean_start BadTerm (by simp [BadTerm]) ?_
      intro l it h; cases h
      refine clean_under BadTerm badTerm_app (ih _ hw) fun l c z _ => ?_
      refine clean_compl BadTerm (by simp [BadTerm, TermCause]) ?_
      intro l t h; cases h <;> tmdone
  | mat s ih =>
      intro e hw x n
      refine clean_start BadTerm (by simp [BadTerm]) ?_
      intro l it h; cases h
      refine clean_under BadTerm badTerm_app (ih _ hw) fun l c z _ => ?_
      refine clean_compl BadTerm (by simp [BadTerm, TermCause]) ?_
      intro l t h; cases h <;> tmdone
  | demat s ih =>
      intro e hw x n
      refine clean_start BadTerm (by simp [BadTerm]) ?_
      intro l it h; cases h
      refine clean_under BadTerm badTerm_app (ih _ hw) fun l c z _ => ?_
      refine clean_compl BadTerm (by simp [BadTerm, TermCause]) ?_
      intro l t h; cases h <;> tmdone
  | bulk kd m f s ih =>
      intro e hw x n
      refine clean_start BadTerm (by simp [BadTerm]) ?_
      intro l it h; cases h
      refine clean_under BadTerm badTerm_app (ih _ hw.1) fun l c z _ => ?_
      refine clean_compl BadTerm ?_ ?_
      · rintro ⟨_, hn, l, ex, hr⟩; exact bulkRes_ok (hw.2 hn) _ _ _ _ _ hr
      intro l t h; cases h <;> tmdone
  | «unless» s ih =>
      intro e hw x n
      refine clean_start BadTerm (by simp [BadTerm]) ?_
      intro l it h; cases h with
      | unlessStop => tmdone
      | unlessGo _ => exact clean_under BadTerm badTerm_app (ih _ hw) fun _ _ _ _ => clean_term_fwd
      | unlessNo _ => exact ih _ hw x _
  | repN m s ih =>
      intro e hw x n
      refine clean_start BadTerm (by simp [BadTerm]) ?_
      intro l it h; cases h with
      | repN0 => tmdone
      | repN _ _ hm => exact clean_term_repN (ih e hw.1) hw.2 _ _ _
  | repU s ih =>
      intro e hw x n
      refine clean_start BadTerm (by simp [BadTerm]) ?_
      intro l it h; cases h
      exact clean_term_repU (ih e hw.1) hw.2 _ _


end Verif.Sender
