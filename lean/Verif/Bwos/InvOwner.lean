import Verif.Bwos.Inv
/-! # `bwos::lifo_queue` — the owner's steps preserve the invariant -/
namespace Verif.Bwos

theorem claimed_tpc {c : Cfg} {s s' : St} (h : s'.tpc = s.tpc) (j : Nat) :
    claimed c s' j = claimed c s j := by simp [claimed, h]

theorem upd_self {α β : Type} [DecidableEq α] (f : α → β) (a : α) : upd f a (f a) = f := by
  funext x; simp [upd]; rintro rfl; rfl

/-- A step of the owner that only touches its own block. -/
theorem inv_inplace {c : Cfg} {s s' : St} (h : Inv c s) (b' : Blk) (hs : s'.start = s.start)
    (ho : s'.own = s.own) (ht : s'.tpc = s.tpc) (hr : s'.ret = s.ret)
    (hb : s'.blk = upd s.blk (s.own % c.n) b')
    (hf : ∀ i < (s.at c s.own).head.2, b'.buf i = (s.at c s.own).buf i)
    (hh : claimed c s (s.own % c.n) = 0 ∨ b'.head.2 = (s.at c s.own).head.2)
    (hl : ∀ t, s'.log.filterMap (stolenBy t) = s.log.filterMap (stolenBy t))
    (hw : ownOk c s') : Inv c s' := by
  have hne : ∀ k, s.start ≤ k → k < s.start + c.n → k ≠ s.own → s'.at c k = s.at c k := by
    intro k h1 h2 h3
    have : k % c.n ≠ s.own % c.n := fun e => h3 (mod_inj h1 h2 h.lo h.hi e)
    simp [St.at, hb, upd, this]
  have heq : s'.at c s.own = b' := by simp [St.at, hb]
  have hcl := fun j => claimed_tpc (c := c) ht j
  refine ⟨by rw [hs, ho]; exact h.lo, by rw [hs, ho]; exact h.hi, ?_, ?_, hw, ?_, ?_, ?_, ?_, ?_⟩
  · intro k h1 h2
    rw [hs] at h1; rw [ho] at h2
    rw [hne k h1 (by have := h.hi; omega) (by omega), hcl]; exact h.gr k h1 h2
  · intro k h1 h2
    rw [hs] at h2; rw [ho] at h1
    rw [hne k (by have := h.lo; omega) h2 (by omega), hcl]; exact h.fr k h1 h2
  · rw [ht]; exact h.thr
  · rw [ht]; exact h.idx
  · rw [ht]; exact h.rdj
  · intro t k i h1 h2 h3
    rw [hs] at h1 h2; rw [ht] at h3
    have hi := h.rdl t k i h1 h2 h3
    by_cases hk : k = s.own
    · subst hk
      simp only [lim, ho, Nat.lt_irrefl, if_false, heq] at hi ⊢
      rcases hh with hh | hh
      · have := claimed_pos (c := c) (s := s) (t := t) (j := s.own % c.n) (h.thr t (by simp [h3]))
          (by simp [h3, TPc.holds])
        omega
      · omega
    · simp only [lim, ho, hne k h1 h2 hk] at hi ⊢; exact hi
  · intro t
    rw [hl, h.pnd, hr]
    congr 1
    simp only [St.pend, ht, hb]
    split
    · rename_i j i hj
      simp only [upd]
      split
      · rename_i e
        subst e
        have hi := h.rdl t s.own i h.lo h.hi hj
        simp only [lim, Nat.lt_irrefl, if_false] at hi
        rw [hf i hi]; rfl
      · rfl
    · rfl
    · rfl

theorem stolenBy_push (t : Nat) (v : Val) : stolenBy t (.push v) = none := rfl
theorem stolenBy_pushRet (t : Nat) (v : List Val) : stolenBy t (.pushRet v) = none := rfl
theorem stolenBy_pop (t : Nat) (v : Val) : stolenBy t (.pop v) = none := rfl
theorem stolenBy_popNull (t : Nat) : stolenBy t .popNull = none := rfl

theorem inv_grant {c : Cfg} {s : St} (h : Inv c s) (vs : List Val) (e : Int × Nat)
    (hw : s.opc = .grant2 vs e) (s' : St) (hs' : ownerStep c s = some s') : Inv c s' := by
  have how := h.ow
  simp only [ownOk, hw] at how
  obtain ⟨how, htl, hvs, hlt, he⟩ := how
  simp only [ownerStep, hw, Option.some.injEq] at hs'
  have hlo := h.lo
  have hhi := h.hi
  subst hs'
  have hne : ∀ k, s.start ≤ k → k < s.start + c.n → k ≠ s.own →
      (s.setB c s.own { s.at c s.own with head := e, stealTail := (s.at c s.own).head }).at c k
        = s.at c k := by
    intro k h1 h2 h3
    have : k % c.n ≠ s.own % c.n := fun e => h3 (mod_inj h1 h2 h.lo h.hi e)
    simp [St.at, St.setB, upd, this]
  refine ⟨?_, ?_, ?_, ?_, ?_, h.thr, h.idx, h.rdj, ?_, ?_⟩
  · simp only [St.setB]; omega
  · simp only [St.setB]; omega
  · intro k h1 h2
    simp only [St.setB] at h1 h2
    by_cases hk : k = s.own
    · subst hk
      have : claimed c (St.mk (s.setB c s.own { s.at c s.own with head := e, stealTail := (s.at c s.own).head }).blk
          s.start s.last (s.own + 1) (.spin vs) s.tpc s.log s.ret) (s.own % c.n) = claimed c s (s.own % c.n) :=
        claimed_tpc rfl _
      simp only [St.setB, St.at, upd_same]
      refine ⟨how.rnd, Nat.le_trans how.lo how.hi, htl, he, ?_⟩
      exact how.ct
    · exact (hne k h1 (by omega) hk) ▸ h.gr k h1 (by omega)
  · intro k h1 h2
    simp only [St.setB] at h1 h2
    exact (hne k (by omega) h2 (by omega)) ▸ h.fr k (by omega) h2
  · simp only [ownOk]
    refine ⟨?_, hvs⟩
    exact (hne (s.own + 1) (by omega) hlt (by omega)) ▸ h.fr (s.own + 1) (by omega) hlt
  · intro t k i h1 h2 h3
    simp only [St.setB] at h1 h2 h3
    have hi := h.rdl t k i h1 h2 h3
    by_cases hk : k = s.own
    · subst hk
      simpa [lim, St.setB, St.at] using hi
    · have hh : (k < s.own + 1) ↔ (k < s.own) := by omega
      have := hne k h1 h2 hk
      simp only [lim] at hi ⊢
      simp only [St.setB] at this ⊢
      simp only [St.at] at this hi ⊢
      simp only [this, hh]; exact hi
  · intro t
    refine (h.pnd t).trans ?_
    show s.ret t ++ _ = s.ret t ++ _
    congr 1
    simp only [St.pend, St.setB, St.at]
    split
    · simp only [upd]; split
      · rename_i e; rw [e]
      · rfl
    · rfl
    · rfl

theorem inv_take {c : Cfg} {s : St} (h : Inv c s) (hw : s.opc = .take) (s' : St)
    (hs' : ownerStep c s = some s') : Inv c s' := by
  have how := h.ow
  simp only [ownOk, hw] at how
  obtain ⟨how, hlt⟩ := how
  simp only [ownerStep, hw, Option.some.injEq] at hs'
  have hlo := h.lo
  have hhi := h.hi
  obtain ⟨p, hp⟩ : ∃ p, s.own = p + 1 := ⟨s.own - 1, by omega⟩
  have hp1 : s.own - 1 = p := by omega
  have hg := h.gr p (by omega) (by omega)
  subst hs'
  rw [hp1]
  have hne : ∀ k, s.start ≤ k → k < s.start + c.n → k ≠ p →
      (s.setB c p { s.at c p with head := (s.at c p).stealTail, stealTail := (s.at c p).head }).at c k
        = s.at c k := by
    intro k h1 h2 h3
    have : k % c.n ≠ p % c.n := fun e => h3 (mod_inj h1 h2 (by omega) (by omega) e)
    simp [St.at, St.setB, upd, this]
  refine ⟨?_, ?_, ?_, ?_, ?_, h.thr, h.idx, h.rdj, ?_, ?_⟩
  · simp only [St.setB]; omega
  · simp only [St.setB]; omega
  · intro k h1 h2
    simp only [St.setB] at h1 h2
    exact (hne k h1 (by omega) (by omega)) ▸ h.gr k h1 (by omega)
  · intro k h1 h2
    simp only [St.setB] at h1 h2
    by_cases hk : k = s.own
    · subst hk
      exact (hne s.own (by omega) h2 (by omega)) ▸ how
    · exact (hne k (by omega) h2 (by omega)) ▸ h.fr k (by omega) h2
  · simp only [ownOk]
    simp only [St.setB, St.at, upd_same]
    exact ⟨hg.hd, hg.rnd, by rw [show (s.blk (p % c.n)).tail = c.bs from hg.tl]; exact hg.le,
      Nat.le_of_eq hg.tl, hg.ct⟩
  · intro t k i h1 h2 h3
    simp only [St.setB] at h1 h2 h3
    have hi := h.rdl t k i h1 h2 h3
    by_cases hk : k = p
    · subst hk
      simp only [lim] at hi
      rw [if_pos (by omega)] at hi
      simpa [lim, St.setB, St.at] using hi
    · have := hne k h1 h2 hk
      simp only [lim] at hi ⊢
      simp only [St.setB] at this ⊢
      simp only [St.at] at this hi ⊢
      rw [this]
      by_cases hk2 : k = s.own
      · subst hk2
        rw [if_neg (by omega)] at hi ⊢; exact hi
      · have hh : (k < p) ↔ (k < s.own) := by omega
        simp only [hh]; exact hi
  · intro t
    refine (h.pnd t).trans ?_
    show s.ret t ++ _ = s.ret t ++ _
    congr 1
    simp only [St.pend, St.setB, St.at]
    split
    · simp only [upd]; split
      · rename_i e; rw [e]
      · rfl
    · rfl
    · rfl

theorem inv_start {c : Cfg} {s : St} (h : Inv c s) (vs : List Val) (hw : s.opc = .stS vs) (s' : St)
    (hs' : ownerStep c s = some s') : Inv c s' := by
  have how := h.ow
  simp only [ownOk, hw] at how
  obtain ⟨how, htl, hvs, hor⟩ := how
  simp only [ownerStep, hw, Option.some.injEq] at hs'
  have hlo := h.lo
  have hhi := h.hi
  have hn := c.hn
  by_cases hm : (s.own + 1) % c.n = s.start % c.n
  · have hfull : s.own + 1 = s.start + c.n := by
      rcases hor with h1 | h1
      · have := mod_inj (by omega : s.start ≤ s.own + 1) h1 (Nat.le_refl _) (by omega) hm; omega
      · exact h1.1
    have hor : s.start < s.own ∧ (s.at c s.start).stealTail.2 = c.bs := by
      rcases hor with h1 | h1
      · omega
      · exact h1.2
    rw [if_pos hm] at hs'
    subst hs'
    have hg := h.gr s.start (Nat.le_refl _) hor.1
    refine ⟨by simp only; omega, by simp only; omega, ?_, ?_, ?_, h.thr, h.idx, h.rdj, ?_, h.pnd⟩
    · intro k h1 h2; exact h.gr k (by simp only at h1; omega) h2
    · intro k h1 h2
      simp only at h1 h2
      by_cases hk : k < s.start + c.n
      · exact h.fr k h1 hk
      · have hk : k = s.start + c.n := by omega
        subst hk
        show Fr c _ (s.blk _) (claimed c s _)
        have hm' : (s.start + c.n) % c.n = s.start % c.n := Nat.add_mod_right _ _
        have hd : (s.start + c.n) / c.n = s.start / c.n + 1 := Nat.add_div_right _ c.hn
        rw [hm']
        refine ⟨?_, ?_, ?_⟩
        · rw [hd]
          refine Prod.ext ?_ hor.2
          have := hg.rnd; simp only [St.at] at this ⊢; rw [this]; simp
        · have := hg.hd; simp only [St.at] at this; rw [this]; simp
        · have := hg.ct; have h2 := hg.hd; have h3 := hor.2
          simp only [St.at] at this h2 h3; rw [this, h2, h3]
    · simp only [ownOk]; exact ⟨how, htl, hvs, by omega⟩
    · intro t k i h1 h2 h3
      simp only at h1 h2 h3
      by_cases hk : k < s.start + c.n
      · exact h.rdl t k i (by omega) hk h3
      · have hk : k = s.start + c.n := by omega
        subst hk
        have hm' : (s.start + c.n) % c.n = s.start % c.n := Nat.add_mod_right _ _
        rw [hm'] at h3
        have hi := h.rdl t s.start i (Nat.le_refl _) (by omega) h3
        simp only [lim] at hi ⊢
        rw [if_pos hor.1] at hi
        rw [if_neg (by omega)]
        simp only [St.at, hm'] at *
        rw [hg.hd]; simp only [St.at] at hor hi ⊢; omega
  · rw [if_neg hm] at hs'
    subst hs'
    refine ⟨h.lo, h.hi, h.gr, h.fr, ?_, h.thr, h.idx, h.rdj, h.rdl, h.pnd⟩
    simp only [ownOk]
    refine ⟨how, htl, hvs, ?_⟩
    rcases hor with h1 | h1
    · exact h1
    · exfalso; apply hm; rw [h1.1]; exact Nat.add_mod_right _ _

theorem inv_owner {c : Cfg} {s s' : St} (h : Inv c s) (hs' : ownerStep c s = some s') : Inv c s' := by
  have how := h.ow
  have hlo := h.lo
  have hhi := h.hi
  have hn := c.hn
  have hs0 := hs'
  unfold ownerStep at hs'
  split at hs'
  · cases hs'
  · rename_i b hw
    simp only [ownOk, hw] at how
    cases hs'
    obtain ⟨o, h1, h2⟩ := how
    refine inv_inplace h { s.at c s.own with tail := b } rfl rfl rfl rfl rfl (fun _ _ => rfl) (.inr rfl)
      (fun t => by simp [stolenBy_pushRet, St.setB]) ?_
    simp only [ownOk, St.setB, St.at, upd_same]
    exact ⟨o.st, o.rnd, h1, h2, o.ct⟩
  · rename_i v vs b hw
    simp only [ownOk, hw] at how
    obtain ⟨o, h1, h2⟩ := how
    split at hs'
    · cases hs'
      refine inv_inplace h { s.at c s.own with buf := upd (s.at c s.own).buf b v } rfl rfl rfl rfl rfl
        (fun i hi => by simp only [upd]; rw [if_neg (by omega)]) (.inr rfl)
        (fun t => by simp [stolenBy_push, St.setB]) ?_
      simp only [ownOk, St.setB, St.at, upd_same]
      exact ⟨⟨o.st, o.rnd, o.lo, o.hi, o.ct⟩, Nat.le_succ_of_le h1, by omega⟩
    · cases hs'
      refine inv_inplace h { s.at c s.own with tail := b } rfl rfl rfl rfl rfl (fun _ _ => rfl)
        (.inr rfl) (fun t => rfl) ?_
      simp only [ownOk, St.setB, St.at, upd_same]
      exact ⟨⟨o.st, o.rnd, h1, h2, o.ct⟩, by omega, by simp⟩
  · rename_i vs hw
    simp only [ownOk, hw] at how
    obtain ⟨o, h1, h2⟩ := how
    split at hs'
    · cases hs'
      refine inv_inplace h (s.at c s.own) rfl rfl rfl rfl (upd_self _ _).symm (fun _ _ => rfl) (.inr rfl)
        (fun t => by simp [stolenBy_pushRet]) ?_
      simp only [ownOk]; exact o
    · rename_i hm
      split at hs'
      · rename_i hst
        cases hs'
        refine inv_inplace h (s.at c s.own) rfl rfl rfl rfl (upd_self _ _).symm (fun _ _ => rfl)
          (.inr rfl) (fun t => rfl) ?_
        simp only [ownOk]
        refine ⟨o, h1, h2, ?_⟩
        by_cases hk : s.own + 1 < s.start + c.n
        · exact .inl hk
        · right
          have hfull : s.own + 1 = s.start + c.n := by omega
          refine ⟨hfull, ?_, ?_⟩
          · by_cases hso : s.start < s.own
            · exact hso
            · exfalso; apply hm; rw [hfull, show s.own = s.start by omega]; exact Nat.add_mod_right _ _
          · rw [hfull] at hst
            simp only [St.at, Nat.add_mod_right] at hst
            simp only [St.at]; rw [hst]
      · cases hs'
        refine inv_inplace h (s.at c s.own) rfl rfl rfl rfl (upd_self _ _).symm (fun _ _ => rfl)
          (.inr rfl) (fun t => by simp [stolenBy_pushRet]) ?_
        simp only [ownOk]; exact o
  · rename_i vs hw; exact inv_start h vs hw s' hs0
  · rename_i vs hw
    simp only [ownOk, hw] at how
    cases hs'
    refine inv_inplace h (s.at c s.own) rfl rfl rfl rfl (upd_self _ _).symm (fun _ _ => rfl) (.inr rfl)
      (fun t => rfl) ?_
    simp only [ownOk]
    exact ⟨how.1, how.2.1, how.2.2.1, how.2.2.2, how.1.st⟩
  · rename_i vs e hw; exact inv_grant h vs e hw s' hs0
  · rename_i vs hw
    simp only [ownOk, hw] at how
    obtain ⟨o, h2⟩ := how
    split at hs'
    · rename_i hct
      cases hs'
      have hz : claimed c s (s.own % c.n) = 0 := by have := o.ct; omega
      refine inv_inplace h { s.at c s.own with head := (((s.own / c.n : Nat) : Int), 0) }
        rfl rfl rfl rfl rfl (fun _ _ => rfl) (.inl hz) (fun t => rfl) ?_
      simp only [ownOk, St.setB, St.at, upd_same]
      exact ⟨⟨rfl, hz⟩, o.st, h2⟩
    · cases hs'; exact h
  · rename_i vs hw
    simp only [ownOk, hw] at how
    obtain ⟨o, h1, h2⟩ := how
    cases hs'
    refine inv_inplace h { s.at c s.own with tail := 0 } rfl rfl rfl rfl rfl (fun _ _ => rfl)
      (.inl o.cl) (fun t => rfl) ?_
    simp only [ownOk, St.setB, St.at, upd_same]
    exact ⟨⟨o.hd, o.cl⟩, h1, trivial, h2⟩
  · rename_i vs hw
    simp only [ownOk, hw] at how
    obtain ⟨o, h1, h2, h3⟩ := how
    cases hs'
    refine inv_inplace h { s.at c s.own with stealTail := (((s.own / c.n : Nat) : Int), c.bs) }
      rfl rfl rfl rfl rfl (fun _ _ => rfl) (.inl o.cl) (fun t => rfl) ?_
    simp only [ownOk, St.setB, St.at, upd_same]
    exact ⟨⟨o.hd, o.cl⟩, trivial, h2, h3⟩
  · rename_i vs hw
    simp only [ownOk, hw] at how
    obtain ⟨o, h1, h2, h3⟩ := how
    cases hs'
    refine inv_inplace h { s.at c s.own with stealCount := 0 }
      rfl rfl rfl rfl rfl (fun _ _ => rfl) (.inl o.cl) (fun t => rfl) ?_
    simp only [ownOk, St.setB, St.at, upd_same]
    have hd := o.hd
    simp only [St.at] at hd h2 h1
    refine ⟨⟨h1, by rw [hd], by rw [hd]; exact Nat.zero_le _, by simp [h2], ?_⟩, h2, h3⟩
    rw [hd]; show 0 + claimed c s _ = 0; rw [o.cl]
  · rename_i vs hw
    simp only [ownOk, hw] at how
    obtain ⟨o, h1, h2⟩ := how
    cases hs'
    refine inv_inplace h (s.at c s.own) rfl rfl rfl rfl (upd_self _ _).symm (fun _ _ => rfl) (.inr rfl)
      (fun t => rfl) ?_
    simp only [ownOk]
    exact ⟨o, o.lo, o.hi⟩
  · rename_i hw
    simp only [ownOk, hw] at how
    split at hs'
    · rename_i hem
      cases hs'
      refine inv_inplace h (s.at c s.own) rfl rfl rfl rfl (upd_self _ _).symm (fun _ _ => rfl) (.inr rfl)
        (fun t => rfl) ?_
      simp only [ownOk]
      exact ⟨how, by have := how.lo; show (s.at c s.own).head.2 = (s.at c s.own).tail; omega⟩
    · rename_i hem
      cases hs'
      refine inv_inplace h { s.at c s.own with tail := (s.at c s.own).tail - 1 } rfl rfl rfl rfl rfl
        (fun _ _ => rfl) (.inr rfl) (fun t => by simp [stolenBy_pop, St.setB]) ?_
      simp only [ownOk, St.setB, St.at, upd_same]
      have h1 := how.lo
      have h2 := how.hi
      simp only [St.at] at h1 h2 hem
      exact ⟨how.st, how.rnd, by simp only; omega, by simp only; omega, how.ct⟩
  · rename_i hw
    simp only [ownOk, hw] at how
    split at hs'
    · cases hs'
      refine inv_inplace h (s.at c s.own) rfl rfl rfl rfl (upd_self _ _).symm (fun _ _ => rfl) (.inr rfl)
        (fun t => by simp [stolenBy_popNull]) ?_
      simp only [ownOk]; exact how.1
    · cases hs'
      refine inv_inplace h (s.at c s.own) rfl rfl rfl rfl (upd_self _ _).symm (fun _ _ => rfl) (.inr rfl)
        (fun t => rfl) ?_
      simp only [ownOk]; exact ⟨how.1, how.2, by omega⟩
  · rename_i hw
    simp only [ownOk, hw] at how
    cases hs'
    refine inv_inplace h (s.at c s.own) rfl rfl rfl rfl (upd_self _ _).symm (fun _ _ => rfl) (.inr rfl)
      (fun t => rfl) ?_
    simp only [ownOk]; exact ⟨how.1, how.2.1, how.2.2, how.1.st⟩
  · rename_i e hw
    simp only [ownOk, hw] at how
    obtain ⟨o, h1, h2, rfl⟩ := how
    cases hs'
    refine inv_inplace h { s.at c s.own with stealTail := (((s.own / c.n : Nat) : Int) - 1, c.bs) }
        rfl rfl rfl rfl rfl (fun _ _ => rfl) (.inr rfl) (fun t => rfl) ?_
    simp only [ownOk, St.setB, St.at, upd_same]
    exact ⟨⟨rfl, Nat.le_trans o.lo o.hi, o.ct⟩, h2⟩
  · rename_i hw; exact inv_take h hw s' hs0
  · rename_i hw
    simp only [ownOk, hw] at how
    cases hs'
    refine inv_inplace h (s.at c s.own) rfl rfl rfl rfl (upd_self _ _).symm (fun _ _ => rfl) (.inr rfl)
      (fun t => rfl) ?_
    simp only [ownOk]; exact how

end Verif.Bwos
