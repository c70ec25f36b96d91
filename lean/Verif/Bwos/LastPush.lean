import Verif.Bwos.Content
/-! # `bwos::lifo_queue` — the value pushed last is popped first -/
namespace Verif.Bwos

/-- The owner's last push or pop in a history. -/
def lastOwn : List Ev → Option Ev
  | [] => none
  | e :: l => match lastOwn l with
    | some x => some x
    | none => match e with
      | .push v => some (.push v)
      | .pop v => some (.pop v)
      | .popNull => some .popNull
      | _ => none

theorem lastOwn_snoc (l : List Ev) (e : Ev) : lastOwn (l ++ [e]) =
    match e with
    | .push v => some (.push v)
    | .pop v => some (.pop v)
    | .popNull => some .popNull
    | _ => lastOwn l := by
  induction l with
  | nil => cases e <;> rfl
  | cons a l ih =>
    simp only [List.cons_append, lastOwn, ih]
    cases e <;> simp

/-- Where the value pushed last is. -/
def lpOk (c : Cfg) (s : St) (v : Val) : Prop :=
  match s.opc with
  | .put vs b => ((s.at c s.own).head.2 < b ∧ (s.at c s.own).buf (b - 1) = v) ∨ (vs ≠ [] ∧ b < c.bs)
  | .idle | .get | .wr _ =>
      (s.at c s.own).head.2 < (s.at c s.own).tail ∧ (s.at c s.own).buf ((s.at c s.own).tail - 1) = v
  | .ldS | .red1 | .red2 _ | .take | .lastG => False
  | _ => True

def LP (c : Cfg) (s : St) : Prop := ∀ v, lastOwn s.log = some (.push v) → lpOk c s v

theorem lp_owner {c : Cfg} {s s' : St} (h : Inv c s) (h1 : LP c s)
    (hs' : ownerStep c s = some s') : LP c s' := by
  have how := h.ow
  have hbs := c.hbs
  intro v
  have h1 := h1 v
  unfold lpOk at h1 ⊢
  unfold ownerStep at hs'
  split at hs'
  · cases hs'
  · rename_i b hw
    cases hs'; intro hl
    simp only [lastOwn_snoc, St.setB] at hl
    have := h1 hl; rw [hw] at this
    simp only [St.setB, St.at, upd_same] at this ⊢
    simpa using this
  · rename_i x vs b hw
    simp only [ownOk, hw] at how
    obtain ⟨o, ho1, ho2⟩ := how
    split at hs'
    · cases hs'; intro hl
      simp only [lastOwn_snoc] at hl
      injection hl with hl; injection hl with hl; subst hl
      left
      simp only [St.setB, St.at, upd_same] at ho1 ⊢
      exact ⟨by omega, by simp⟩
    · rename_i hb
      cases hs'; intro hl
      have := h1 hl; rw [hw] at this
      simp only [St.setB, St.at, upd_same] at this ⊢
      rcases this with this | this
      · exact this
      · exact absurd this.2 hb
  · rename_i vs hw
    split at hs'
    · cases hs'; intro hl
      simp only [lastOwn_snoc] at hl
      have := h1 hl; rw [hw] at this; exact this
    · split at hs'
      · cases hs'; intro hl; trivial
      · cases hs'; intro hl
        simp only [lastOwn_snoc] at hl
        have := h1 hl; rw [hw] at this; exact this
  · cases hs'; intro _; trivial
  · cases hs'; intro _; trivial
  · cases hs'; intro _; trivial
  · rename_i hw
    split at hs'
    · cases hs'; intro _; trivial
    · cases hs'; intro _; rw [hw]; trivial
  · cases hs'; intro _; trivial
  · cases hs'; intro _; trivial
  · cases hs'; intro _; trivial
  · rename_i vs hw
    simp only [ownOk, hw] at how
    cases hs'; intro _
    right
    exact ⟨how.2.2, by show (s.at c s.own).tail < c.bs; rw [how.2.1]; exact hbs⟩
  · rename_i hw
    split at hs'
    · rename_i he
      cases hs'; intro hl
      have := h1 hl; rw [hw] at this; simp only at this; omega
    · cases hs'; intro hl; simp [lastOwn_snoc] at hl
  · rename_i hw
    split at hs'
    · cases hs'; intro hl; simp [lastOwn_snoc] at hl
    · cases hs'; intro hl; have := h1 hl; rw [hw] at this; exact this
  · rename_i hw; cases hs'; intro hl; have := h1 hl; rw [hw] at this; exact this
  · rename_i hw; cases hs'; intro hl; have := h1 hl; rw [hw] at this; exact this
  · rename_i hw; cases hs'; intro hl; have := h1 hl; rw [hw] at this; exact this
  · rename_i hw; cases hs'; intro hl; have := h1 hl; rw [hw] at this; exact this.elim

theorem lpOk_congr {c : Cfg} {s s' : St} {v : Val} (h : lpOk c s v) (h1 : s'.opc = s.opc)
    (h2 : s'.own = s.own) (h3 : (s'.at c s.own).head = (s.at c s.own).head)
    (h4 : (s'.at c s.own).tail = (s.at c s.own).tail)
    (h5 : (s'.at c s.own).buf = (s.at c s.own).buf) : lpOk c s' v := by
  simp only [lpOk, h1, h2, h3, h4, h5] at h ⊢; exact h

theorem lp_thief {c : Cfg} {s s' : St} (h1 : LP c s) (t : Nat)
    (hs' : thiefStep c s t = some s') : LP c s' := by
  intro v
  have h1 := h1 v
  unfold thiefStep at hs'
  split at hs'
  · cases hs'
  · cases hs'; exact h1
  · split at hs'
    · split at hs' <;> cases hs' <;> exact h1
    · cases hs'; exact h1
  · split at hs' <;> cases hs' <;> exact h1
  · split at hs'
    · cases hs'
      intro hl
      simp only [lastOwn_snoc, St.setB] at hl
      refine lpOk_congr (h1 hl) rfl rfl ?_ ?_ ?_
      all_goals
        simp only [St.setB, St.at, upd]
        split
        · rename_i e; rw [e]
        · rfl
    · cases hs'; exact h1
  · cases hs'; exact h1
  · cases hs'
    intro hl
    refine lpOk_congr (h1 hl) rfl rfl ?_ ?_ ?_
    all_goals
      simp only [St.at, upd]
      split
      · rename_i e; rw [e]
      · rfl
  · split at hs' <;> cases hs' <;> exact h1

theorem lp_step {c : Cfg} {s s' : St} (h : Inv c s) (h1 : LP c s) (a : Act)
    (hs' : step c s a = some s') : LP c s' := by
  cases a with
  | owner => exact lp_owner h h1 hs'
  | thief t => exact lp_thief h1 t hs'
  | push vs =>
    simp only [step] at hs'; split at hs' <;> cases hs'
    rename_i hw
    intro v hl
    have := h1 v hl
    simp only [lpOk, hw] at this ⊢
    exact .inl this
  | pop =>
    simp only [step] at hs'; split at hs' <;> cases hs'
    rename_i hw
    intro v hl
    have := h1 v hl
    simp only [lpOk, hw] at this ⊢
    exact this
  | steal t =>
    simp only [step] at hs'
    split at hs'
    · split at hs' <;> cases hs'; exact h1
    · cases hs'

theorem lp_reach (c : Cfg) : ∀ s, Reach (init c) (step c) s → LP c s := by
  refine Reach.inv' _ ?_ (fun s a _ hr h e => lp_step (inv_reach c s hr) h a e)
  intro v hl; simp [init, lastOwn] at hl

end Verif.Bwos
