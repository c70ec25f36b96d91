import Verif.Bwos.InvOwner
/-! # `bwos::lifo_queue` — the thieves' steps preserve the invariant -/
namespace Verif.Bwos

theorem ownOk_congr {c : Cfg} {s s' : St} (h : ownOk c s) (h1 : s'.opc = s.opc) (h2 : s'.own = s.own)
    (h3 : s'.start = s.start) (h4 : s'.at c s.own = s.at c s.own)
    (h5 : claimed c s' (s.own % c.n) = claimed c s (s.own % c.n))
    (h6 : (s.at c s.start).stealTail.2 = c.bs → (s'.at c s.start).stealTail.2 = c.bs) : ownOk c s' := by
  simp only [ownOk, h1, h2, h3, h4, h5] at h ⊢
  split at h <;> first
    | exact h
    | (obtain ⟨a, b, d, e⟩ := h
       refine ⟨a, b, d, ?_⟩
       rcases e with e | e
       · exact .inl e
       · exact .inr ⟨e.1, e.2.1, h6 e.2.2⟩)

/-- A step that moves thief `t` between places where it holds no claim. -/
theorem inv_tpc {c : Cfg} {s s' : St} (h : Inv c s) (t : Nat) (p : TPc) (hp : ∀ j, p.holds j = false)
    (hq : ∀ j, (s.tpc t).holds j = false) (ht : t < c.N)
    (hi : ∀ k r i, p = .ldTail k r i ∨ p = .cas k r i → i < c.bs)
    (hs : s' = { s with tpc := upd s.tpc t p }) : Inv c s' := by
  subst hs
  have hcl : ∀ j, claimed c { s with tpc := upd s.tpc t p } j = claimed c s j := by
    intro j
    apply claimed_congr
    intro x
    simp only [upd]; split
    · rename_i e; subst e; rw [hp, hq]
    · rfl
  have hnrd : ∀ j i, p ≠ .rd j i := by
    intro j i e; have := hp j; simp [e, TPc.holds] at this
  refine ⟨h.lo, h.hi, ?_, ?_, ?_, ?_, ?_, ?_, ?_, ?_⟩
  · intro k h1 h2; rw [hcl]; exact h.gr k h1 h2
  · intro k h1 h2; rw [hcl]; exact h.fr k h1 h2
  · exact ownOk_congr h.ow rfl rfl rfl rfl (hcl _) (fun e => e)
  · intro x hx
    simp only [upd] at hx
    split at hx
    · rename_i e; subst e; exact ht
    · exact h.thr x hx
  · intro x k r i hx
    simp only [upd] at hx
    split at hx
    · exact hi k r i hx
    · exact h.idx x k r i hx
  · intro x j i hx
    simp only [upd] at hx
    split at hx
    · exact absurd hx (hnrd j i)
    · exact h.rdj x j i hx
  · intro x k i h1 h2 hx
    simp only [upd] at hx
    split at hx
    · exact absurd hx (hnrd _ i)
    · exact h.rdl x k i h1 h2 hx
  · intro x
    refine (h.pnd x).trans ?_
    show s.ret x ++ _ = s.ret x ++ _
    congr 1
    by_cases e : x = t
    · subst e
      have e1 : s.pend x = [] := by
        unfold St.pend
        split
        · rename_i j i hj; have := hq j; simp [hj, TPc.holds] at this
        · rename_i j i hj; have := hq j; simp [hj, TPc.holds] at this
        · rfl
      have e2 : ({ s with tpc := upd s.tpc x p } : St).pend x = [] := by
        unfold St.pend
        split
        · rename_i j i hj; simp only [upd_same] at hj; have := hp j; simp [hj, TPc.holds] at this
        · rename_i j i hj; simp only [upd_same] at hj; have := hp j; simp [hj, TPc.holds] at this
        · rfl
      rw [e1, e2]
    · simp [St.pend, upd, e]

theorem inv_cas {c : Cfg} {s s' : St} (h : Inv c s) (t k0 : Nat) (r : Int) (i : Nat)
    (hw : s.tpc t = .cas k0 r i) (hst : (s.at c k0).stealTail = (r, i))
    (hs : s' = { s.setB c k0 { s.at c k0 with stealTail := (r, i + 1) } with
                 tpc := upd s.tpc t (.rd (k0 % c.n) i)
                 log := s.log ++ [.steal t ((s.at c k0).buf i)] }) : Inv c s' := by
  have hib := h.idx t k0 r i (.inr hw)
  have hlo := h.lo
  have hhi := h.hi
  obtain ⟨k, hk1, hk2, hk3⟩ := window s.start (k0 % c.n) c.hn (Nat.mod_lt _ c.hn)
  have hat : s.at c k0 = s.at c k := by simp [St.at, hk3]
  have hset : ∀ b, s.setB c k0 b = s.setB c k b := by intro b; simp [St.setB, hk3]
  rw [hat, hset, ← hk3] at hs
  rw [hat] at hst
  have hko : k < s.own := h.granted_of hk1 hk2 (by rw [hst]; exact hib)
  have hg := h.gr k hk1 hko
  have htN := h.thr t (by simp [hw])
  have hne : ∀ k', s.start ≤ k' → k' < s.start + c.n → k' ≠ k → k' % c.n ≠ k % c.n :=
    fun k' h1 h2 h3 e => h3 (mod_inj h1 h2 hk1 hk2 e)
  have hatne : ∀ k', s.start ≤ k' → k' < s.start + c.n → k' ≠ k → s'.at c k' = s.at c k' := by
    intro k' h1 h2 h3; subst hs; simp [St.at, St.setB, upd, hne k' h1 h2 h3]
  have hateq : s'.at c k = { s.at c k with stealTail := (r, i + 1) } := by
    subst hs; simp [St.at, St.setB]
  have hclne : ∀ j, j ≠ k % c.n → claimed c s' j = claimed c s j := by
    intro j hj
    apply claimed_congr
    intro x; subst hs
    simp only [upd]; split
    · rename_i e; subst e; simp [hw, TPc.holds]; exact fun e => hj e.symm
    · rfl
  have hcleq : claimed c s' (k % c.n) = claimed c s (k % c.n) + 1 := by
    refine cnt_flip htN ?_ ?_ ?_
    · simp [hw, TPc.holds]
    · subst hs; simp [TPc.holds]
    · intro x hx; subst hs; simp [upd, hx]
  have e1 : s'.start = s.start := by subst hs; rfl
  have e2 : s'.own = s.own := by subst hs; rfl
  have e3 : s'.opc = s.opc := by subst hs; rfl
  have e4 : s'.tpc = upd s.tpc t (.rd (k % c.n) i) := by subst hs; rfl
  have e5 : s'.ret = s.ret := by subst hs; rfl
  have e6 : s'.log = s.log ++ [.steal t ((s.at c k).buf i)] := by subst hs; rfl
  have e7 : ∀ j, (s'.blk j).buf = (s.blk j).buf := by
    intro j; subst hs; simp only [St.setB, upd]; split
    · rename_i e; rw [e]; rfl
    · rfl
  clear hs
  refine ⟨by rw [e1, e2]; exact hlo, by rw [e1, e2]; exact hhi, ?_, ?_, ?_, ?_, ?_, ?_, ?_, ?_⟩
  · intro k' h1 h2
    rw [e1] at h1; rw [e2] at h2
    by_cases hk : k' = k
    · subst hk
      rw [hateq, hcleq]
      refine ⟨?_, ?_, hg.tl, hg.hd, ?_⟩
      · have := hg.rnd; rw [hst] at this; exact this
      · simp only; omega
      · have := hg.ct; rw [hst] at this; simp only at this ⊢; omega
    · rw [hatne k' h1 (by omega) hk, hclne _ (hne k' h1 (by omega) hk)]; exact h.gr k' h1 h2
  · intro k' h1 h2
    rw [e1] at h2; rw [e2] at h1
    rw [hatne k' (by omega) h2 (by omega), hclne _ (hne k' (by omega) h2 (by omega))]
    exact h.fr k' h1 h2
  · refine ownOk_congr h.ow e3 e2 e1 (hatne _ hlo hhi (by omega))
      (hclne _ (hne _ hlo hhi (by omega))) ?_
    intro e
    by_cases hk : s.start = k
    · rw [hk, hst] at e; simp only at e; omega
    · rw [hatne _ (Nat.le_refl _) (by have := c.hn; omega) hk]; exact e
  · intro x hx
    rw [e4] at hx
    simp only [upd] at hx
    split at hx
    · rename_i e; subst e; exact htN
    · exact h.thr x hx
  · intro x k r i hx
    rw [e4] at hx
    simp only [upd] at hx
    split at hx
    · simp at hx
    · exact h.idx x k r i hx
  · intro x j i hx
    rw [e4] at hx
    simp only [upd] at hx
    split at hx
    · injection hx with a b; subst a; exact Nat.mod_lt _ c.hn
    · exact h.rdj x j i hx
  · intro x k' i' h1 h2 hx
    rw [e1] at h1 h2
    rw [e4] at hx
    simp only [upd] at hx
    split at hx
    · injection hx with a b
      have : k' = k := by
        by_cases e : k' = k
        · exact e
        · exact absurd a.symm (hne k' h1 h2 e)
      subst this
      simp only [lim, e2, hko, if_true, hateq]; omega
    · have hi := h.rdl x k' i' h1 h2 hx
      by_cases hk : k' = k
      · subst hk
        simp only [lim, e2, hko, if_true, hateq, hst] at hi ⊢; omega
      · simp only [lim, e2, hatne k' h1 h2 hk] at hi ⊢; exact hi
  · intro x
    rw [e6, e5, List.filterMap_append, h.pnd x]
    by_cases e : x = t
    · subst e
      simp [St.pend, hw, e4, stolenBy, e7, St.at]
    · have : stolenBy x (.steal t ((s.at c k).buf i)) = none := by
        simp [stolenBy]; exact fun a => e a.symm
      simp [List.filterMap, this, St.pend, e4, upd, e, e7]

theorem inv_rd {c : Cfg} {s s' : St} (h : Inv c s) (t j i : Nat) (hw : s.tpc t = .rd j i)
    (hs : s' = { s with tpc := upd s.tpc t (.inc j ((s.blk j).buf i)) }) : Inv c s' := by
  subst hs
  have hcl : ∀ j', claimed c { s with tpc := upd s.tpc t (.inc j ((s.blk j).buf i)) } j'
      = claimed c s j' := by
    intro j
    apply claimed_congr
    intro x
    simp only [upd]; split
    · rename_i e; subst e; simp [hw, TPc.holds]
    · rfl
  refine ⟨h.lo, h.hi, ?_, ?_, ?_, ?_, ?_, ?_, ?_, ?_⟩
  · intro k h1 h2; rw [hcl]; exact h.gr k h1 h2
  · intro k h1 h2; rw [hcl]; exact h.fr k h1 h2
  · exact ownOk_congr h.ow rfl rfl rfl rfl (hcl _) (fun e => e)
  · intro x hx
    simp only [upd] at hx
    split at hx
    · rename_i e; subst e; exact h.thr x (by simp [hw])
    · exact h.thr x hx
  · intro x k r i hx
    simp only [upd] at hx
    split at hx
    · simp at hx
    · exact h.idx x k r i hx
  · intro x j i hx
    simp only [upd] at hx
    split at hx
    · cases hx
    · exact h.rdj x j i hx
  · intro x k i h1 h2 hx
    simp only [upd] at hx
    split at hx
    · cases hx
    · exact h.rdl x k i h1 h2 hx
  · intro x
    refine (h.pnd x).trans ?_
    show s.ret x ++ _ = s.ret x ++ _
    congr 1
    by_cases e : x = t
    · subst e; simp [St.pend, hw]
    · simp [St.pend, upd, e]

theorem inv_inc {c : Cfg} {s s' : St} (h : Inv c s) (t j : Nat) (v : Val) (hw : s.tpc t = .inc j v)
    (hs : s' = { s with blk := upd s.blk j { s.blk j with stealCount := (s.blk j).stealCount + 1 }
                        tpc := upd s.tpc t .idle
                        ret := upd s.ret t (s.ret t ++ [v]) }) : Inv c s' := by
  have hlo := h.lo
  have hhi := h.hi
  have htN := h.thr t (by simp [hw])
  have hclne : ∀ j', j' ≠ j → claimed c s' j' = claimed c s j' := by
    intro j' hj
    apply claimed_congr
    intro x; subst hs
    simp only [upd]; split
    · rename_i e; subst e; simp [hw, TPc.holds]; exact fun e => hj e.symm
    · rfl
  have hcleq : claimed c s j = claimed c s' j + 1 := by
    refine cnt_flip htN ?_ ?_ ?_
    · subst hs; simp [TPc.holds]
    · simp [hw, TPc.holds]
    · intro x hx; subst hs; simp [upd, hx]
  have hne : ∀ k, k % c.n ≠ j → s'.at c k = s.at c k := by
    intro k hk; subst hs; simp [St.at, upd, hk]
  have heq : ∀ k, k % c.n = j →
      s'.at c k = { s.at c k with stealCount := (s.at c k).stealCount + 1 } := by
    intro k hk; subst hs; simp [St.at, upd, hk]
  have e1 : s'.start = s.start := by subst hs; rfl
  have e2 : s'.own = s.own := by subst hs; rfl
  have e3 : s'.opc = s.opc := by subst hs; rfl
  have e4 : s'.tpc = upd s.tpc t .idle := by subst hs; rfl
  have e5 : s'.ret = upd s.ret t (s.ret t ++ [v]) := by subst hs; rfl
  have e6 : s'.log = s.log := by subst hs; rfl
  have e7 : ∀ j, (s'.blk j).buf = (s.blk j).buf := by
    intro j; subst hs; simp only [upd]; split
    · rename_i e; rw [e]
    · rfl
  have e8 : ∀ k, (s'.at c k).stealTail = (s.at c k).stealTail ∧ (s'.at c k).head = (s.at c k).head := by
    intro k
    by_cases hk : k % c.n = j
    · rw [heq k hk]; exact ⟨rfl, rfl⟩
    · rw [hne k hk]; exact ⟨rfl, rfl⟩
  clear hs
  have hG : ∀ k, Gr c k (s.at c k) (claimed c s (k % c.n)) →
      Gr c k (s'.at c k) (claimed c s' (k % c.n)) := by
    intro k g
    by_cases hk : k % c.n = j
    · rw [heq k hk, hk]
      have := g.ct; rw [hk] at this
      exact ⟨g.rnd, g.le, g.tl, g.hd, by simp only; omega⟩
    · rw [hne k hk, hclne _ hk]; exact g
  have hF : ∀ k, Fr c k (s.at c k) (claimed c s (k % c.n)) →
      Fr c k (s'.at c k) (claimed c s' (k % c.n)) := by
    intro k g
    by_cases hk : k % c.n = j
    · rw [heq k hk, hk]
      have := g.ct; rw [hk] at this
      exact ⟨g.st, g.hd, by simp only; omega⟩
    · rw [hne k hk, hclne _ hk]; exact g
  have hO : ∀ k, Ow c k (s.at c k) (claimed c s (k % c.n)) →
      Ow c k (s'.at c k) (claimed c s' (k % c.n)) := by
    intro k g
    by_cases hk : k % c.n = j
    · rw [heq k hk, hk]
      have := g.ct; rw [hk] at this
      exact ⟨g.st, g.rnd, g.lo, g.hi, by simp only; omega⟩
    · rw [hne k hk, hclne _ hk]; exact g
  have hR : ∀ k, Rc c k (s.at c k) (claimed c s (k % c.n)) →
      Rc c k (s'.at c k) (claimed c s' (k % c.n)) := by
    intro k g
    by_cases hk : k % c.n = j
    · have := g.cl; rw [hk] at this; omega
    · rw [hne k hk, hclne _ hk]; exact g
  have e9 : ∀ k, (s'.at c k).tail = (s.at c k).tail := by
    intro k
    by_cases hk : k % c.n = j
    · rw [heq k hk]
    · rw [hne k hk]
  refine ⟨by rw [e1, e2]; exact hlo, by rw [e1, e2]; exact hhi, ?_, ?_, ?_, ?_, ?_, ?_, ?_, ?_⟩
  · intro k h1 h2; rw [e1] at h1; rw [e2] at h2; exact hG k (h.gr k h1 h2)
  · intro k h1 h2; rw [e2] at h1; rw [e1] at h2; exact hF k (h.fr k h1 h2)
  · have how := h.ow
    simp only [ownOk, e1, e2, e3] at how ⊢
    split at how
    all_goals simp only [(e8 _).1, (e8 _).2, e9] at *
    all_goals first
      | exact hO _ how
      | exact ⟨hO _ how.1, how.2⟩
      | exact ⟨hF _ how.1, how.2⟩
      | exact ⟨hR _ how.1, how.2⟩
  · intro x hx
    rw [e4] at hx
    simp only [upd] at hx
    split at hx
    · exact absurd rfl hx
    · exact h.thr x hx
  · intro x k r i hx
    rw [e4] at hx
    simp only [upd] at hx
    split at hx
    · simp at hx
    · exact h.idx x k r i hx
  · intro x j i hx
    rw [e4] at hx
    simp only [upd] at hx
    split at hx
    · cases hx
    · exact h.rdj x j i hx
  · intro x k i h1 h2 hx
    rw [e1] at h1 h2
    rw [e4] at hx
    simp only [upd] at hx
    split at hx
    · cases hx
    · have := h.rdl x k i h1 h2 hx
      simp only [lim, e2, (e8 _).1, (e8 _).2] at this ⊢; exact this
  · intro x
    rw [e6, e5, h.pnd x]
    by_cases e : x = t
    · subst e; simp [St.pend, hw, e4]
    · simp [St.pend, upd, e, e4, e7]

theorem inv_thief {c : Cfg} {s s' : St} (h : Inv c s) (t : Nat) (hs' : thiefStep c s t = some s') :
    Inv c s' := by
  have htN := h.thr t
  unfold thiefStep at hs'
  split at hs'
  · cases hs'
  · rename_i hw; cases hs'
    exact inv_tpc h t _ (fun _ => rfl) (by simp [hw, TPc.holds]) (htN (by simp [hw])) (by simp) rfl
  · rename_i k hw
    split at hs'
    · split at hs' <;> cases hs' <;>
      exact inv_tpc h t _ (fun _ => rfl) (by simp [hw, TPc.holds]) (htN (by simp [hw])) (by simp) rfl
    · rename_i hne
      cases hs'
      refine inv_tpc h t _ (fun _ => rfl) (by simp [hw, TPc.holds]) (htN (by simp [hw])) ?_ rfl
      intro k' r i e
      rcases e with e | e <;> injection e
      rename_i a b d
      subst d
      obtain ⟨k', h1, h2, h3⟩ := window s.start (k % c.n) c.hn (Nat.mod_lt _ c.hn)
      have hat : s.at c k = s.at c k' := by simp [St.at, h3]
      rw [hat] at hne ⊢
      by_cases hlt : (s.at c k').stealTail.2 < c.bs
      · exact hlt
      · exfalso
        apply hne
        by_cases hko : k' < s.own
        · have := (h.gr k' h1 hko).le; omega
        · by_cases he : k' = s.own
          · subst he
            have ho := h.ow
            simp only [ownOk] at ho
            split at ho
            all_goals first
              | exact (congrArg Prod.snd ho.1.st)
              | exact (congrArg Prod.snd ho.st)
              | exact (congrArg Prod.snd ho.2.1)
          · exact congrArg Prod.snd (h.fr k' (by omega) h2).st
  · rename_i k r i hw
    split at hs' <;> cases hs'
    · exact inv_tpc h t _ (fun _ => rfl) (by simp [hw, TPc.holds]) (htN (by simp [hw])) (by simp) rfl
    · refine inv_tpc h t _ (fun _ => rfl) (by simp [hw, TPc.holds]) (htN (by simp [hw])) ?_ rfl
      intro k' r' i' e
      have := h.idx t k r i (.inl hw)
      rcases e with e | e <;> injection e
      omega
  · rename_i k r i hw
    split at hs' <;> cases hs'
    · rename_i hst; exact inv_cas h t k r i hw hst rfl
    · exact inv_tpc h t _ (fun _ => rfl) (by simp [hw, TPc.holds]) (htN (by simp [hw])) (by simp) rfl
  · rename_i j i hw; cases hs'; exact inv_rd h t j i hw rfl
  · rename_i j v hw; cases hs'; exact inv_inc h t j v hw rfl
  · rename_i k hw
    split at hs' <;> cases hs' <;>
    exact inv_tpc h t _ (fun _ => rfl) (by simp [hw, TPc.holds]) (htN (by simp [hw])) (by simp) rfl

theorem inv_step {c : Cfg} {s s' : St} (h : Inv c s) (a : Act) (hs' : step c s a = some s') :
    Inv c s' := by
  cases a with
  | owner => exact inv_owner h hs'
  | thief t => exact inv_thief h t hs'
  | push vs =>
    simp only [step] at hs'
    split at hs' <;> cases hs'
    rename_i hw
    have ho := h.ow
    simp only [ownOk, hw] at ho
    refine inv_inplace h (s.at c s.own) rfl rfl rfl rfl (upd_self _ _).symm (fun _ _ => rfl) (.inr rfl)
      (fun t => rfl) ?_
    simp only [ownOk]; exact ⟨ho, ho.lo, ho.hi⟩
  | pop =>
    simp only [step] at hs'
    split at hs' <;> cases hs'
    rename_i hw
    have ho := h.ow
    simp only [ownOk, hw] at ho
    refine inv_inplace h (s.at c s.own) rfl rfl rfl rfl (upd_self _ _).symm (fun _ _ => rfl) (.inr rfl)
      (fun t => rfl) ?_
    simp only [ownOk]; exact ho
  | steal t =>
    simp only [step] at hs'
    split at hs'
    · rename_i hw
      split at hs' <;> cases hs'
      exact inv_tpc h t _ (fun _ => rfl) (by simp [hw, TPc.holds]) (by assumption) (by simp) rfl
    · cases hs'

theorem inv_reach (c : Cfg) : ∀ s, Reach (init c) (step c) s → Inv c s :=
  Reach.inv _ (inv_init c) (fun _ a _ h e => inv_step h a e)

end Verif.Bwos
