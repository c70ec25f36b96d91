import Verif.Sender.Typing
/-!
# Nothing bad is executed, and everything halts (parts of C25, C28, C29; proof tools)
-/
namespace Verif.Sender

/-- The pending call can terminate the program. -/
def BadTerm : Env → Item → Prop
  | _, .inl (.compl c (f :: _) _) => TermCause c f
  | _, _ => False

/-- The pending call would not compile. -/
def BadUb : Env → Item → Prop
  | root, .inl (.start s k _) => ∃ q, s = .readEnv q ∧ envOf root k q = none
  | _, .inl (.compl c (f :: _) _) => UbCause c f
  | _, _ => False

/-- A terminated / ill-formed machine state comes from a bad pending call. -/
theorem bad_shape (e : Env) (s : S) (x : Nat) : ∀ m, Reach (init e s x) step m →
    (m.term = true → ∃ l it, T1s e (.inl (.start s [] x)) l it ∧ BadTerm e it) ∧
    (m.ub = true → ∃ l it, T1s e (.inl (.start s [] x)) l it ∧ BadUb e it) := by
  apply Reach.inv'
  · exact ⟨fun h => by simp [init] at h, fun h => by simp [init] at h⟩
  · intro m a m' hr _ hs
    obtain ⟨he, hsh⟩ := shape e s x m hr
    unfold step at hs
    split at hs
    · cases hs
    · rename_i htu
      rcases hsh with ⟨h, _⟩ | ⟨ht, hu, h⟩
      · exact absurd h (by simpa using htu)
      cases a with
      | run i orc =>
          simp only at hs
          rcases h with ⟨it, hT, hd, hit⟩ | ⟨c, y, _, h1, h2, h3⟩
          · rcases it with t | p
            · obtain ⟨h1, h2⟩ := hit
              rw [h1] at hs
              cases i with
              | succ i => simp at hs
              | zero =>
                simp only [List.getElem?_cons_zero] at hs
                rcases t with ⟨sn, k, z⟩ | ⟨c, k, z⟩
                · simp only [Option.some.injEq] at hs
                  rcases startS_sound (envOf m.env k) k z sn orc with ⟨w, l, t, hw, hst, hi⟩ | ⟨hc, w, hw⟩
                  · rw [hw] at hs; subst hs
                    simp [St.after, ht, hu]
                  · rw [hw] at hs; subst hs
                    simp only [St.after, ht, Bool.false_eq_true, false_implies, true_and, forall_const]
                    exact ⟨_, _, hT, by rw [he] at hc; exact hc⟩
                · rcases k with _ | ⟨f, k⟩
                  · simp only [Option.some.injEq] at hs; subst hs
                    simp [ht, hu]
                  · simp only [Option.some.injEq] at hs
                    rcases complF_sound k z c f orc with ⟨w, l, t, hw, hst, hi⟩ | ⟨hc, w, hw⟩ | ⟨hc, w, hw⟩
                    · rw [hw] at hs; subst hs; simp [St.after, ht, hu]
                    · rw [hw] at hs; subst hs
                      simp only [St.after, hu, Bool.false_eq_true, false_implies, and_true, forall_const]
                      exact ⟨_, _, hT, hc⟩
                    · rw [hw] at hs; subst hs
                      simp only [St.after, ht, Bool.false_eq_true, false_implies, true_and, forall_const]
                      exact ⟨_, _, hT, hc⟩
            · obtain ⟨h1, h2⟩ := hit
              rw [h1] at hs; simp at hs
          · rw [h1] at hs; simp at hs
      | leaf i c z =>
          simp only at hs
          split at hs
          · cases hs
          · split at hs
            · simp only [Option.some.injEq] at hs; subst hs; simp [ht, hu]
            · cases hs

/-- Splitting a partial run. -/
theorem T1n.split' {root : Env} {n : Nat} {it b : Item} {l : List Ev} {k : List Frame} {a : Item}
    (h : T1n root n it l b) (ha : it = a.app k) :
    (∃ b0 : Item, (∀ c x, b0 ≠ .inl (.compl c [] x)) ∧ b = b0.app k ∧ T1s (envOf root k) a l b0) ∨
    ∃ l1 c x l2 n', n' ≤ n ∧ T1s (envOf root k) a l1 (.inl (.compl c [] x)) ∧
      T1n root n' (.inl (.compl c k x)) l2 b ∧ l = l1 ++ l2 := by
  induction h generalizing a with
  | refl it =>
      subst ha
      by_cases hc : ∃ c x, a = .inl (.compl c [] x)
      · obtain ⟨c, x, rfl⟩ := hc
        exact .inr ⟨[], c, x, [], 0, by omega, .refl _, .refl _, rfl⟩
      · exact .inl ⟨a, fun c x h => hc ⟨c, x, h⟩, rfl, .refl _⟩
  | head h1 h2 ih =>
      subst ha
      rcases h1.unapp with ⟨c, x, rfl⟩ | ⟨b0, rfl, h0⟩
      · exact .inr ⟨[], c, x, _, _, Nat.le_refl _, .refl _, .head h1 h2, rfl⟩
      · rcases ih rfl with ⟨b1, hb1, rfl, hT⟩ | ⟨l1, c, x, l2, n', hn, hA, hB, rfl⟩
        · exact .inl ⟨b1, hb1, rfl, .head h0 hT⟩
        · exact .inr ⟨_, c, x, l2, n', by omega, .head h0 hA, hB, (List.append_assoc ..).symm⟩

theorem badTerm_app {root k} {a : Item} (hn : ∀ c x, a ≠ .inl (.compl c [] x))
    (h : BadTerm root (a.app k)) : BadTerm (envOf root k) a := by
  rcases a with (⟨s, j, x⟩ | ⟨c, j, x⟩) | ⟨lf, j⟩
  · exact h
  · cases j with
    | nil => exact absurd rfl (hn c x)
    | cons f j => exact h
  · exact h

theorem badUb_app {root k} {a : Item} (hn : ∀ c x, a ≠ .inl (.compl c [] x))
    (h : BadUb root (a.app k)) : BadUb (envOf root k) a := by
  rcases a with (⟨s, j, x⟩ | ⟨c, j, x⟩) | ⟨lf, j⟩
  · obtain ⟨q, h1, h2⟩ := h
    exact ⟨q, h1, by rw [← envOf_append]; exact h2⟩
  · cases j with
    | nil => exact absurd rfl (hn c x)
    | cons f j => exact h
  · exact h

section generic
variable (Bad : Env → Item → Prop)
  (bapp : ∀ {root k} {a : Item}, (∀ c x, a ≠ .inl (.compl c [] x)) →
    Bad root (a.app k) → Bad (envOf root k) a)

/-- No run from `it` of at most `n` moves meets a bad call. -/
def CleanN (e : Env) (n : Nat) (it : Item) : Prop := ∀ m l b, m ≤ n → T1n e m it l b → ¬ Bad e b

def CleanS (e : Env) (s : S) : Prop := ∀ x n, CleanN Bad e n (.inl (.start s [] x))

theorem CleanS.t1s {e s x l b} (h : CleanS Bad e s) (ht : T1s e (.inl (.start s [] x)) l b) : ¬ Bad e b := by
  obtain ⟨n, hn⟩ := T1n_iff.1 ht
  exact h x n n l b (Nat.le_refl n) hn

include bapp in
theorem clean_under {e : Env} {n : Nat} {s : S} {F : Frame} {x : Nat} (hs : CleanS Bad (F.env' e) s)
    (hF : ∀ l c z, Runs (F.env' e) s x l c z → CleanN Bad e n (.inl (.compl c [F] z))) :
    CleanN Bad e n (.inl (.start s [F] x)) := by
  intro m l b hm ht hb
  rcases ht.split' (k := [F]) (a := .inl (.start s [] x)) rfl with
    ⟨b0, hn, rfl, hT⟩ | ⟨l1, c, z, l2, n', hn', h1, h2, rfl⟩
  · exact hs.t1s Bad hT (bapp hn hb)
  · exact hF l1 c z (runs_iff.2 h1) n' l2 b (by omega) h2 hb

theorem clean_start {e : Env} {n : Nat} {s : S} {k : List Frame} {x : Nat}
    (h0 : ¬ Bad e (.inl (.start s k x)))
    (h : ∀ l it, SStep (envOf e k) k x s l it → CleanN Bad e (n - 1) it) :
    CleanN Bad e n (.inl (.start s k x)) := by
  intro m l b hm ht hb
  cases ht with
  | refl => exact h0 hb
  | head h1 h2 => cases h1 with
    | start h1 => exact h _ _ h1 _ _ _ (by omega) h2 hb

theorem clean_compl {e : Env} {n : Nat} {c : Comp} {F : Frame} {k : List Frame} {x : Nat}
    (h0 : ¬ Bad e (.inl (.compl c (F :: k) x)))
    (h : ∀ l t, CStep k x c F l t → CleanN Bad e (n - 1) (.inl t)) :
    CleanN Bad e n (.inl (.compl c (F :: k) x)) := by
  intro m l b hm ht hb
  cases ht with
  | refl => exact h0 hb
  | head h1 h2 => cases h1 with
    | compl h1 => exact h _ _ h1 _ _ _ (by omega) h2 hb

theorem clean_done {e : Env} {n : Nat} {c : Comp} {x : Nat} (h0 : ¬ Bad e (.inl (.compl c [] x))) :
    CleanN Bad e n (.inl (.compl c [] x)) := by
  intro m l b hm ht hb
  cases ht with
  | refl => exact h0 hb
  | head h1 h2 => cases h1

theorem clean_leaf {e : Env} {n : Nat} {lf : Leaf} {x : Nat}
    (h0 : ∀ k, ¬ Bad e (.inr (lf, k))) (h1 : ∀ k x, ¬ Bad e (.inl (.start (.leaf lf) k x)))
    (h2 : ∀ c x, ¬ Bad e (.inl (.compl c [] x))) :
    CleanN Bad e n (.inl (.start (.leaf lf) [] x)) := by
  apply clean_start Bad (h1 _ _)
  intro l it hs
  cases hs
  intro m l b hm ht hb
  cases ht with
  | refl => exact h0 _ hb
  | head g1 g2 => cases g1 with
    | leaf hal => exact clean_done Bad (h2 _ _) _ _ _ (Nat.le_refl _) g2 hb

end generic

/-! ### no ill-formed call -/

macro "ubdone" : tactic => `(tactic| exact clean_done BadUb (by simp [BadUb]))

theorem clean_ub_fwd {e n c z} : CleanN BadUb e n (.inl (.compl c [.fwd] z)) := by
  refine clean_compl BadUb (by simp [BadUb, UbCause]) ?_
  intro l t h; cases h; ubdone

theorem clean_ub_round {e : Env} {s : S} (hs : CleanS BadUb e s) : CleanS BadUb e (.seq .tramp s) := by
  intro x n
  refine clean_start BadUb (by simp [BadUb]) ?_
  intro l it h; cases h
  refine clean_under BadUb badUb_app (s := .tramp) ?_ fun l c z hr => ?_
  · intro x n
    refine clean_start BadUb (by simp [BadUb]) ?_
    intro l it h; cases h <;> ubdone
  · refine clean_compl BadUb (by simp [BadUb, UbCause]) ?_
    intro l t h
    cases h with
    | seqOk _ _ => exact clean_under BadUb badUb_app hs fun _ _ _ _ => clean_ub_fwd
    | _ => ubdone

theorem clean_ub_repN {e : Env} {s : S} (hs : CleanS BadUb e s) : ∀ (n m x : Nat),
    CleanN BadUb e n (.inl (.start (.seq .tramp s) [.repN m s] x)) := by
  intro n
  induction n using Nat.strongRecOn with
  | _ n ihn =>
    intro m x
    refine clean_under BadUb badUb_app (clean_ub_round hs) fun l c z _ => ?_
    cases n with
    | zero =>
        intro k l b hk ht hb
        obtain rfl : k = 0 := by omega
        cases ht; simp [BadUb, UbCause] at hb
    | succ n =>
      refine clean_compl BadUb (by simp [BadUb, UbCause]) ?_
      intro l t h
      cases h with
      | repNMore _ _ _ _ => exact ihn n (by omega) (m - 1) _
      | _ => ubdone

theorem clean_ub_repU {e : Env} {s : S} (hw : WT e s)
    (hv : ∀ ts, ⟨.value, ts⟩ ∈ sigs e s → ts = [.bool] ∨ ∃ b, ts = [.bconst b])
    (hs : CleanS BadUb e s) : ∀ (n x : Nat),
    CleanN BadUb e n (.inl (.start (.seq .tramp s) [.repU s] x)) := by
  intro n
  induction n using Nat.strongRecOn with
  | _ n ihn =>
    intro x
    refine clean_under BadUb badUb_app (clean_ub_round hs) fun l c z hr => ?_
    have hnb : ¬ BadUb e (.inl (.compl c [.repU s] z)) := by
      rintro ⟨hc, hb⟩
      rw [comp_eta hc] at hr
      have hr' : Runs e s x l (cvalue c.args) z := by
        rcases round_runs.1 hr with h | ⟨_, h, _⟩ | ⟨_, _, h, _⟩
        · exact h
        · exact absurd h (by simp)
        · exact absurd h (by simp)
      have hm := sound s e hw hr'
      have := hv _ hm
      match hcs : c.args with
      | [] => simp [hcs] at this
      | [v] => rw [hcs] at this hb; cases v <;> simp_all [Val.ty, asBool]
      | _ :: _ :: _ => simp [hcs] at this
    cases n with
    | zero =>
        intro k l b hk ht hb
        obtain rfl : k = 0 := by omega
        cases ht; exact hnb hb
    | succ n =>
      refine clean_compl BadUb hnb ?_
      intro l t h
      cases h with
      | repUMore _ _ _ => exact ihn n (by omega) _
      | _ => ubdone

theorem clean_ub : ∀ (s : S) (e : Env), WT e s → CleanS BadUb e s := by
  intro s
  induction s with
  | leaf lf => intro e _ x n; exact clean_leaf BadUb (by simp [BadUb]) (by simp [BadUb]) (by simp [BadUb])
  | just c =>
      intro e _ x n
      refine clean_start BadUb (by simp [BadUb]) ?_
      intro l it h; cases h; ubdone
  | tramp =>
      intro e _ x n
      refine clean_start BadUb (by simp [BadUb]) ?_
      intro l it h; cases h <;> ubdone
  | readEnv q =>
      intro e hw x n
      refine clean_start BadUb ?_ ?_
      · rintro ⟨q', h, h'⟩; injection h with h; subst h
        simp only [WT, envOf] at hw h'; rw [h'] at hw; cases hw
      · intro l it h; cases h; ubdone
  | writeEnv q v s ih =>
      intro e hw x n
      refine clean_start BadUb (by simp [BadUb]) ?_
      intro l it h; cases h
      refine clean_under BadUb badUb_app (ih _ hw) fun l c z _ => ?_
      refine clean_compl BadUb (by simp [BadUb, UbCause]) ?_
      intro l t h; cases h; ubdone
  | upon ch f s ih =>
      intro e hw x n
      refine clean_start BadUb (by simp [BadUb]) ?_
      intro l it h; cases h
      refine clean_under BadUb badUb_app (ih _ hw.1) fun l c z _ => ?_
      refine clean_compl BadUb (by simp [BadUb, UbCause]) ?_
      intro l t h; cases h <;> ubdone
  | letc ch f k s ihk ih =>
      intro e hw x n
      refine clean_start BadUb (by simp [BadUb]) ?_
      intro l it h; cases h
      refine clean_under BadUb badUb_app (ih _ hw.1) fun l c z hr => ?_
      refine clean_compl BadUb (by simp [BadUb, UbCause]) ?_
      intro l t h
      cases h with
      | letOk _ _ _ hc _ =>
          have hm := sound s e hw.1 hr
          rw [comp_eta hc] at hm
          exact clean_under BadUb badUb_app (ihk _ _ (hw.2 c.args hm).1) fun _ _ _ _ => clean_ub_fwd
      | _ => ubdone
  | contOn lf s ih =>
      intro e hw x n
      refine clean_start BadUb (by simp [BadUb]) ?_
      intro l it h; cases h
      refine clean_under BadUb badUb_app (ih _ hw) fun l c z hr => ?_
      refine clean_compl BadUb (by simp [BadUb, UbCause]) ?_
      intro l t h
      cases h with
      | contOk _ =>
          refine clean_under BadUb badUb_app (fun _ _ => clean_leaf BadUb (by simp [BadUb]) (by simp [BadUb])
            (by simp [BadUb])) fun _ _ _ _ => ?_
          refine clean_compl BadUb (by simp [BadUb, UbCause]) ?_
          intro l t h; cases h <;> ubdone
      | _ => ubdone
  | fin a b iha ihb =>
      intro e hw x n
      refine clean_start BadUb (by simp [BadUb]) ?_
      intro l it h; cases h
      refine clean_under BadUb badUb_app (iha _ hw.1) fun l c z hr => ?_
      refine clean_compl BadUb (by simp [BadUb, UbCause]) ?_
      intro l t h
      generalize sendsValue (sigs (envOf e []) b) = sv at h
      cases h with
      | finOk _ =>
          refine clean_under BadUb badUb_app (ihb _ hw.2.1) fun _ _ _ _ => ?_
          refine clean_compl BadUb (by simp [BadUb, UbCause]) ?_
          intro l t h; cases h <;> ubdone
      | _ => ubdone
  | seq a b iha ihb =>
      intro e hw x n
      refine clean_start BadUb (by simp [BadUb]) ?_
      intro l it h; cases h
      refine clean_under BadUb badUb_app (iha _ hw.1) fun l c z hr => ?_
      refine clean_compl BadUb (by simp [BadUb, UbCause]) ?_
      intro l t h
      cases h with
      | seqOk _ _ => exact clean_under BadUb badUb_app (ihb _ hw.2) fun _ _ _ _ => clean_ub_fwd
      | _ => ubdone
  | sao s ih =>
      intro e hw x n
      refine clean_start BadUb (by simp [BadUb]) ?_
      intro l it h; cases h
      refine clean_under BadUb badUb_app (ih _ hw.1) fun l c z _ => ?_
      refine clean_compl BadUb (by simp [BadUb, UbCause]) ?_
      intro l t h; cases h <;> ubdone
  | ivar s ih =>
      intro e hw x n
      refine clean_start BadUb (by simp [BadUb]) ?_
      intro l it h; cases h
      refine clean_under BadUb badUb_app (ih _ hw) fun l c z _ => ?_
      refine clean_compl BadUb (by simp [BadUb, UbCause]) ?_
      intro l t h; cases h <;> ubdone
  | mat s ih =>
      intro e hw x n
      refine clean_start BadUb (by simp [BadUb]) ?_
      intro l it h; cases h
      refine clean_under BadUb badUb_app (ih _ hw) fun l c z _ => ?_
      refine clean_compl BadUb (by simp [BadUb, UbCause]) ?_
      intro l t h; cases h <;> ubdone
  | demat s ih =>
      intro e hw x n
      refine clean_start BadUb (by simp [BadUb]) ?_
      intro l it h; cases h
      refine clean_under BadUb badUb_app (ih _ hw.1) fun l c z hr => ?_
      refine clean_compl BadUb ?_ ?_
      · rintro ⟨hc, ha⟩
        have hm := sound s e hw.1 hr
        rw [comp_eta hc] at hm
        obtain ⟨ch, rest, hts⟩ := hw.2 _ hm
        cases hcs : c.args with
        | nil => simp [hcs] at hts
        | cons v vs =>
            rw [hcs] at hts ha
            cases v <;> simp_all [Val.ty, asTag]
      · intro l t h; cases h <;> ubdone
  | bulk kd m f s ih =>
      intro e hw x n
      refine clean_start BadUb (by simp [BadUb]) ?_
      intro l it h; cases h
      refine clean_under BadUb badUb_app (ih _ hw.1) fun l c z _ => ?_
      refine clean_compl BadUb (by simp [BadUb, UbCause]) ?_
      intro l t h; cases h <;> ubdone
  | «unless» s ih =>
      intro e hw x n
      refine clean_start BadUb (by simp [BadUb]) ?_
      intro l it h; cases h with
      | unlessStop => ubdone
      | unlessGo _ => exact clean_under BadUb badUb_app (ih _ hw) fun _ _ _ _ => clean_ub_fwd
      | unlessNo _ => exact ih _ hw x _
  | repN m s ih =>
      intro e hw x n
      refine clean_start BadUb (by simp [BadUb]) ?_
      intro l it h; cases h with
      | repN0 => ubdone
      | repN _ _ hm => exact clean_ub_repN (ih e hw.1) _ _ _
  | repU s ih =>
      intro e hw x n
      refine clean_start BadUb (by simp [BadUb]) ?_
      intro l it h; cases h
      exact clean_ub_repU hw.1 hw.2.1 (ih e hw.1) _ _


/-- Connecting the sender can terminate the program. -/
def ConnectTerminates (s : S) : Prop := ∃ orc, (connectM s { orc := orc }).1 = .term

/-- Connecting can succeed, whatever the oracle says later. -/
theorem connectM_pass : ∀ (s : S) (o : List (Option Nat)), ∃ o', ∀ w : W, w.orc = o' →
    connectM s w = (.ok (), { w with orc := o }) := by
  have hm : ∀ (b : Bool) o, ∃ o', ∀ w : W, w.orc = o' → M.mayThrow b w = (.ok (), { w with orc := o }) := by
    intro b o
    cases b
    · exact ⟨o, fun w h => by simp [M.mayThrow, ← h]⟩
    · exact ⟨none :: o, fun w h => by simp [M.mayThrow, h]⟩
  intro s
  induction s with
  | leaf l => intro o; exact hm _ o
  | just c => intro o; exact ⟨o, fun w h => by simp [connectM, M.pure, ← h]⟩
  | tramp => intro o; exact ⟨o, fun w h => by simp [connectM, M.pure, ← h]⟩
  | readEnv q => intro o; exact ⟨o, fun w h => by simp [connectM, M.pure, ← h]⟩
  | contOn l s ih =>
      intro o
      obtain ⟨o1, h1⟩ := ih o
      obtain ⟨o2, h2⟩ := hm l.ct o1
      exact ⟨o2, fun w h => by simp [connectM, M.bind, h2 w h, h1]⟩
  | fin a b iha ihb =>
      intro o
      obtain ⟨o1, h1⟩ := iha o
      obtain ⟨o2, h2⟩ := ihb o1
      exact ⟨o2, fun w h => by simp [connectM, M.bind, M.noexc, h2 w h, h1]⟩
  | repN n s ih =>
      intro o
      by_cases hn : n = 0
      · exact ⟨o, fun w h => by simp [connectM, hn, M.pure, ← h]⟩
      · obtain ⟨o', h'⟩ := hm s.cpt o
        exact ⟨o', fun w h => by simp [connectM, hn, h' w h]⟩
  | repU s ih => intro o; exact hm _ o
  | letc ch f k s _ ih => intro o; exact ih o
  | seq a b iha ihb => intro o; exact iha o
  | writeEnv q v s ih => intro o; exact ih o
  | upon ch f s ih => intro o; exact ih o
  | sao s ih => intro o; exact ih o
  | ivar s ih => intro o; exact ih o
  | mat s ih => intro o; exact ih o
  | demat s ih => intro o; exact ih o
  | bulk kd n f s ih => intro o; exact ih o
  | «unless» s ih => intro o; exact ih o

theorem connectM_term : ∀ (s : S), s.termThrow = true → ∃ o, ∀ w : W, w.orc = o →
    (connectM s w).1 = .term := by
  intro s
  induction s with
  | leaf l => intro h; simp [S.termThrow] at h
  | just c => intro h; simp [S.termThrow] at h
  | tramp => intro h; simp [S.termThrow] at h
  | readEnv q => intro h; simp [S.termThrow] at h
  | repN n s ih => intro h; simp [S.termThrow] at h
  | repU s ih => intro h; simp [S.termThrow] at h
  | contOn l s ih =>
      intro h
      obtain ⟨o, ho⟩ := ih h
      obtain ⟨o', h'⟩ := connectM_pass (.leaf l) o
      refine ⟨o', fun w hw => ?_⟩
      have := h' w hw
      simp only [connectM] at this
      have h2 := ho { w with orc := o } rfl
      simp only [connectM, M.bind, this, h2]
  | fin a b iha ihb =>
      intro h
      simp only [S.termThrow, Bool.or_eq_true] at h
      have hb : b.dynThrow = true → ∃ o, ∀ w : W, w.orc = o → (connectM (.fin a b) w).1 = .term := by
        intro h
        obtain ⟨o, ho⟩ := connectM_throws b 0 h
        exact ⟨o, fun w hw => by simp only [connectM, M.noexc, M.bind, ho w hw]⟩
      have hb' : b.termThrow = true → ∃ o, ∀ w : W, w.orc = o → (connectM (.fin a b) w).1 = .term := by
        intro h
        obtain ⟨o, ho⟩ := ihb h
        refine ⟨o, fun w hw => ?_⟩
        have := ho w hw
        rcases hr : connectM b w with ⟨r, w'⟩
        rw [hr] at this; simp only at this; subst this
        simp only [connectM, M.noexc, M.bind, hr]
      have ha : ∀ o, (∀ w : W, w.orc = o → ∃ ex, (connectM a w).1 = .thr ex ∨ (connectM a w).1 = .term) →
          ∃ o, ∀ w : W, w.orc = o → (connectM (.fin a b) w).1 = .term := by
        intro o ho
        obtain ⟨o', h'⟩ := connectM_pass b o
        refine ⟨o', fun w hw => ?_⟩
        obtain ⟨ex, h2⟩ := ho { w with orc := o } rfl
        rcases hr : connectM a { w with orc := o } with ⟨r, w'⟩
        rw [hr] at h2; simp only at h2
        rcases h2 with rfl | rfl <;> simp only [connectM, M.noexc, M.bind, h' w hw, hr]
      rcases h with ((h | h) | h) | h
      · obtain ⟨o, ho⟩ := connectM_throws a 0 h
        exact ha o fun w hw => ⟨0, .inl (by rw [ho w hw])⟩
      · exact hb h
      · obtain ⟨o, ho⟩ := iha h
        exact ha o fun w hw => ⟨0, .inr (ho w hw)⟩
      · exact hb' h
  | letc ch f k s _ ih => intro h; exact ih h
  | seq a b iha ihb => intro h; exact iha h
  | writeEnv q v s ih => intro h; exact ih h
  | upon ch f s ih => intro h; exact ih h
  | sao s ih => intro h; exact ih h
  | ivar s ih => intro h; exact ih h
  | mat s ih => intro h; exact ih h
  | demat s ih => intro h; exact ih h
  | bulk kd n f s ih => intro h; exact ih h
  | «unless» s ih => intro h; exact ih h

theorem connectTerminates_of {s : S} (h : s.termThrow = true) : ConnectTerminates s := by
  obtain ⟨o, ho⟩ := connectM_term s h
  exact ⟨o, ho _ rfl⟩

/-- Functions declared `noexcept` do not throw, and no sender that an adaptor connects while running
(the one returned to `let_*`, the second of `sequence`, a repeated one) has a connect that terminates
(which only a `finally` with a throwing child connect does: a defect, see `finally_terminates`). -/
def NoTerm : S → Prop
  | .upon _ f s => NoTerm s ∧ ∀ vs, f.noexc (tys vs) = true → ∃ r, f.run vs = .ok r
  | .letc _ f k s => NoTerm s ∧ (∀ vs, f.noexc (tys vs) = true → f.thr vs = none) ∧
      ∀ vs, NoTerm (k vs) ∧ ¬ ConnectTerminates (k vs)
  | .seq a b => NoTerm a ∧ NoTerm b ∧ ¬ ConnectTerminates b
  | .repN _ s => NoTerm s ∧ ¬ ConnectTerminates s
  | .repU s => NoTerm s ∧ ¬ ConnectTerminates s
  | .bulk _ _ f s => NoTerm s ∧ (f.noexc = true → ∀ b n vs, ∃ r, f.run b n vs = .ok r)
  | .fin a b => NoTerm a ∧ NoTerm b
  | .writeEnv _ _ s => NoTerm s
  | .contOn _ s => NoTerm s
  | .sao s => NoTerm s
  | .ivar s => NoTerm s
  | .mat s => NoTerm s
  | .demat s => NoTerm s
  | .unless s => NoTerm s
  | _ => True

theorem bulkRes_ok {f : BFn} (hf : ∀ b n vs, ∃ r, f.run b n vs = .ok r) (kd : BKind) (n : Nat) (vs : List Val) :
    ∀ l e, bulkRes kd n f vs ≠ (l, .error e) := by
  have hl : ∀ m b vs l e, loopRes f vs b m ≠ (l, .error e) := by
    intro m
    induction m with
    | zero => intro b vs l e; simp [loopRes]
    | succ m ih =>
        intro b vs l e h
        obtain ⟨r, hr⟩ := hf b (b + 1) vs
        simp only [loopRes, hr, Prod.mk.injEq] at h
        exact ih (b + 1) r _ e (Prod.ext rfl h.2)
  intro l e
  cases kd
  · simp only [bulkRes]
    split
    · simp
    · obtain ⟨r, hr⟩ := hf 0 n vs; simp [hr]
  · exact hl _ _ _ _ _
  · exact hl _ _ _ _ _

end Verif.Sender
