import Verif.Bwos.InvThief
/-! # `bwos::lifo_queue` — how each step changes the contents -/
namespace Verif.Bwos

theorem seg_nil (b : Blk) {lo hi : Nat} (h : hi ≤ lo) : seg b lo hi = [] := by
  simp [seg, show hi - lo = 0 by omega]

theorem seg_snoc (b : Blk) {lo hi : Nat} (h : lo ≤ hi) : seg b lo (hi + 1) = seg b lo hi ++ [b.buf hi] := by
  unfold seg
  rw [show hi + 1 - lo = (hi - lo) + 1 by omega, List.range'_concat]
  simp [show lo + (hi - lo) = hi by omega]

theorem seg_cons (b : Blk) {lo hi : Nat} (h : lo < hi) : seg b lo hi = b.buf lo :: seg b (lo + 1) hi := by
  unfold seg
  rw [show hi - lo = (hi - (lo + 1)) + 1 by omega, List.range'_succ]
  simp

theorem seg_congr {b b' : Blk} {lo hi : Nat} (h : ∀ i, lo ≤ i → i < hi → b'.buf i = b.buf i) :
    seg b' lo hi = seg b lo hi := by
  unfold seg
  apply List.map_congr_left
  intro i hi'
  rw [List.mem_range'_1] at hi'
  exact h i (by omega) (by omega)

theorem seg_ne {b : Blk} {lo hi : Nat} (h : lo < hi) : seg b lo hi ≠ [] := by
  rw [seg_cons b h]; simp

theorem flatMap_congr' {l : List Nat} {f g : Nat → List Val} (h : ∀ k ∈ l, f k = g k) :
    l.flatMap f = l.flatMap g := by
  induction l with
  | nil => rfl
  | cons a l ih =>
    simp only [List.flatMap_cons]
    rw [h a (by simp), ih (fun k hk => h k (by simp [hk]))]

theorem granted_congr {c : Cfg} {s s' : St} (h1 : s'.start = s.start) (h2 : s'.own = s.own)
    (h : ∀ k, s.start ≤ k → k < s.own → seg (s'.at c k) (s'.at c k).stealTail.2 c.bs =
      seg (s.at c k) (s.at c k).stealTail.2 c.bs) : s'.granted c = s.granted c := by
  unfold St.granted
  rw [h1, h2]
  apply flatMap_congr'
  intro k hk
  rw [List.mem_range'_1] at hk
  exact h k (by omega) (by omega)

theorem granted_inplace {c : Cfg} {s s' : St} (h : Inv c s) (b' : Blk) (h1 : s'.start = s.start)
    (h2 : s'.own = s.own) (hb : s'.blk = upd s.blk (s.own % c.n) b') : s'.granted c = s.granted c := by
  apply granted_congr h1 h2
  intro k hk1 hk2
  have hlo := h.lo
  have hhi := h.hi
  have : k % c.n ≠ s.own % c.n := fun e => by
    have := mod_inj hk1 (by omega) h.lo h.hi e; omega
  simp [St.at, hb, upd, this]

theorem range'_split {a k b : Nat} (h1 : a ≤ k) (h2 : k < b) :
    List.range' a (b - a) = List.range' a (k - a) ++ k :: List.range' (k + 1) (b - (k + 1)) := by
  have : b - a = (k - a) + ((b - (k + 1)) + 1) := by omega
  rw [this, ← List.range'_append_1, show a + (k - a) = k by omega, List.range'_succ]

/-- With a single block the owner's range always starts at slot 0 (no thief ever gets anything). -/
def N1 (c : Cfg) (s : St) : Prop := c.n = 1 → (s.at c s.own).head.2 = 0

theorem n1_step {c : Cfg} {s s' : St} (h : Inv c s) (h1 : N1 c s) (a : Act)
    (hs' : step c s a = some s') : N1 c s' := by
  intro e
  have h1 := h1 e
  have how := h.ow
  have hlo := h.lo
  have hhi := h.hi
  cases a with
  | owner =>
    simp only [step] at hs'
    unfold ownerStep at hs'
    split at hs'
    all_goals (rename_i hw; simp only [ownOk, hw] at how)
    all_goals try split at hs'
    all_goals try split at hs'
    all_goals cases hs'
    all_goals try (exfalso; omega)
    all_goals simp only [St.setB, St.at, upd_same] at h1 ⊢
    all_goals exact h1
  | thief t =>
    simp only [step] at hs'
    unfold thiefStep at hs'
    split at hs'
    all_goals try split at hs'
    all_goals try split at hs'
    all_goals cases hs'
    all_goals simp only [St.setB, St.at, upd_apply] at h1 ⊢
    all_goals try exact h1
    all_goals
      split
      · rename_i e1; first | (rw [← e1]; exact h1) | (rw [e1] at h1; exact h1)
      · exact h1
  | push vs => simp only [step] at hs'; split at hs' <;> cases hs'; exact h1
  | pop => simp only [step] at hs'; split at hs' <;> cases hs'; exact h1
  | steal t =>
    simp only [step] at hs'
    split at hs'
    · split at hs' <;> cases hs'; exact h1
    · cases hs'

/-- The history stays legal. -/
theorem spec_owner {c : Cfg} {s s' : St} (h : Inv c s) (hsp : Spec s.log (s.content c))
    (hn1 : N1 c s) (hs' : ownerStep c s = some s') : Spec s'.log (s'.content c) := by
  have how := h.ow
  have hlo := h.lo
  have hhi := h.hi
  unfold ownerStep at hs'
  split at hs'
  · cases hs'
  · rename_i b hw
    cases hs'
    refine Spec.pushRet [] ?_ (by simp)
    refine Eq.mp ?_ hsp
    congr 1
    unfold St.content
    congr 1
    · symm; apply granted_inplace h <;> rfl
    · simp only [St.ownSeg, hw, St.setB, St.at, upd_same]; rfl
  · rename_i v vs b hw
    simp only [ownOk, hw] at how
    obtain ⟨o, h1, h2⟩ := how
    split at hs'
    · rename_i hb
      cases hs'
      have e : St.content c { s.setB c s.own { s.at c s.own with buf := upd (s.at c s.own).buf b v } with
               opc := .put vs (b + 1), log := s.log ++ [.push v] } = s.content c ++ [v] := by
        unfold St.content
        rw [List.append_assoc]
        congr 1
        · apply granted_inplace h <;> rfl
        simp only [St.ownSeg, hw, St.setB, St.at, upd_same]
        simp only [St.at] at h1
        rw [seg_snoc _ h1]
        congr 1
        · apply seg_congr
          intro i _ hi
          simp only [upd]; rw [if_neg (by omega)]
        · simp
      rw [e]
      exact Spec.push v hsp
    · cases hs'
      refine Eq.mp ?_ hsp
      congr 1
      unfold St.content
      congr 1
      · symm; apply granted_inplace h <;> rfl
      · simp only [St.ownSeg, hw, St.setB, St.at, upd_same]; rfl
  · rename_i vs hw
    simp only [ownOk, hw] at how
    obtain ⟨o, h1, h2⟩ := how
    have hown : s.ownSeg c = seg (s.at c s.own) (s.at c s.own).head.2 (s.at c s.own).tail := by
      simp only [St.ownSeg, hw]
    split at hs'
    · rename_i hm
      cases hs'
      have hc : St.content c { s with opc := .idle, log := s.log ++ [.pushRet vs] } = s.content c := by
        simp only [St.content, St.granted, St.ownSeg, hw, St.at]
      rw [hc]
      refine Spec.pushRet vs hsp (fun _ => ?_)
      -- a single block: nothing was ever stolen from it
      rw [St.content, hown]
      have hn : c.n = 1 := by
        by_cases hk : s.own + 1 < s.own + c.n
        · have := mod_inj (by omega : s.own ≤ s.own + 1) hk (Nat.le_refl _) (by omega) hm; omega
        · have := c.hn; omega
      have := seg_ne (b := s.at c s.own) (lo := (s.at c s.own).head.2) (hi := (s.at c s.own).tail)
        (by rw [hn1 hn, h1]; exact c.hbs)
      simp [this]
    · rename_i hm
      split at hs'
      · cases hs'
        refine Eq.mp ?_ hsp
        congr 1
        simp only [St.content, St.granted, St.ownSeg, hw, St.at]
      · rename_i hst
        cases hs'
        have hc : St.content c { s with opc := .idle, log := s.log ++ [.pushRet vs] } = s.content c := by
          simp only [St.content, St.granted, St.ownSeg, hw, St.at]
        rw [hc]
        refine Spec.pushRet vs hsp (fun _ => ?_)
        have hfull : s.own + 1 = s.start + c.n := by
          by_cases hk : s.own + 1 < s.start + c.n
          · exact absurd (h.fr (s.own + 1) (by omega) hk).st hst
          · omega
        have hso : s.start < s.own := by
          by_cases hso : s.start < s.own
          · exact hso
          · exfalso; apply hm; rw [hfull, show s.own = s.start by omega]; exact Nat.add_mod_right _ _
        have hg := h.gr s.start (Nat.le_refl _) hso
        have hlt : (s.at c s.start).stealTail.2 < c.bs := by
          rcases Nat.lt_or_eq_of_le hg.le with e | e
          · exact e
          · exfalso; apply hst
            rw [hfull]
            have hd : (s.start + c.n) / c.n = s.start / c.n + 1 := Nat.add_div_right _ c.hn
            rw [hd]
            simp only [St.at, Nat.add_mod_right]
            refine Prod.ext ?_ e
            have := hg.rnd; simp only [St.at] at this ⊢; rw [this]; simp
        rw [St.content, St.granted, range'_split (Nat.le_refl _) hso]
        have := seg_ne (b := s.at c s.start) hlt
        simp [this]
  · rename_i vs hw
    simp only [ownOk, hw] at how
    obtain ⟨o, h1, h2, hor⟩ := how
    cases hs'
    refine Eq.mp ?_ hsp
    congr 1
    unfold St.content
    congr 1
    · by_cases hm : (s.own + 1) % c.n = s.start % c.n
      · have hfull : s.own + 1 = s.start + c.n := by
          rcases hor with h1 | h1
          · have := mod_inj (by omega : s.start ≤ s.own + 1) h1 (Nat.le_refl _) (by omega) hm; omega
          · exact h1.1
        have hor : s.start < s.own ∧ (s.at c s.start).stealTail.2 = c.bs := by
          rcases hor with h1 | h1
          · omega
          · exact h1.2
        rw [St.granted, range'_split (Nat.le_refl _) hor.1]
        simp only [St.granted, hm, if_true, Nat.sub_self, List.range'_zero, List.nil_append,
          List.flatMap_cons]
        rw [seg_nil _ (Nat.le_of_eq hor.2.symm)]
        simp only [St.at, List.nil_append]
      · simp only [St.granted, hm, if_false, St.at]
    · simp only [St.ownSeg, hw, St.at]
  · rename_i vs hw
    cases hs'
    refine Eq.mp ?_ hsp
    congr 1
    simp only [St.content, St.granted, St.ownSeg, hw, St.at]
  · rename_i vs e hw
    simp only [ownOk, hw] at how
    obtain ⟨o, h1, h2, h3, h4⟩ := how
    cases hs'
    refine Eq.mp ?_ hsp
    congr 1
    simp only [St.content, St.granted, St.ownSeg, hw, List.append_nil]
    show _ = List.flatMap _ (List.range' s.start (s.own + 1 - s.start))
    rw [range'_split (k := s.own) (b := s.own + 1) h.lo (by omega)]
    simp only [Nat.sub_self, List.range'_zero, List.flatMap_append, List.flatMap_cons, List.flatMap_nil,
      List.append_nil]
    congr 1
    · apply flatMap_congr'
      intro k hk
      rw [List.mem_range'_1] at hk
      have : k % c.n ≠ s.own % c.n := fun e => by
        have := mod_inj (by omega : s.start ≤ k) (by omega) h.lo h.hi e; omega
      simp [St.at, St.setB, upd, this]
    · simp only [St.setB, St.at, upd_same]
      simp only [St.at] at h1; rw [h1]; rfl
  · rename_i vs hw
    split at hs'
    · cases hs'
      refine Eq.mp ?_ hsp
      congr 1
      unfold St.content
      congr 1
      · symm; apply granted_inplace h <;> rfl
      · simp only [St.ownSeg, hw]
    · cases hs'; exact hsp
  · rename_i vs hw
    cases hs'
    refine Eq.mp ?_ hsp
    congr 1
    unfold St.content
    congr 1
    · symm; apply granted_inplace h <;> rfl
    · simp only [St.ownSeg, hw]
  · rename_i vs hw
    cases hs'
    refine Eq.mp ?_ hsp
    congr 1
    unfold St.content
    congr 1
    · symm; apply granted_inplace h <;> rfl
    · simp only [St.ownSeg, hw]
  · rename_i vs hw
    simp only [ownOk, hw] at how
    obtain ⟨o, h1, h2, h3⟩ := how
    cases hs'
    refine Eq.mp ?_ hsp
    congr 1
    unfold St.content
    congr 1
    · symm; apply granted_inplace h <;> rfl
    · simp only [St.ownSeg, hw, St.setB, St.at, upd_same]
      rw [seg_nil]
      simp only [St.at] at h2; simp [h2]
  · rename_i vs hw
    cases hs'
    refine Eq.mp ?_ hsp
    congr 1
    simp only [St.content, St.granted, St.ownSeg, hw, St.at]
  · rename_i hw
    simp only [ownOk, hw] at how
    split at hs'
    · cases hs'
      refine Eq.mp ?_ hsp
      congr 1
      simp only [St.content, St.granted, St.ownSeg, hw, St.at]
    · rename_i hem
      cases hs'
      have h1 := how.lo
      refine Spec.pop _ ?_
      refine Eq.mp ?_ hsp
      congr 1
      unfold St.content
      rw [List.append_assoc]
      congr 1
      · symm; apply granted_inplace h <;> rfl
      simp only [St.ownSeg, hw, St.setB, St.at, upd_same]
      simp only [St.at] at h1 hem
      have e : (s.blk (s.own % c.n)).tail = ((s.blk (s.own % c.n)).tail - 1) + 1 := by omega
      conv => lhs; rw [e]
      rw [seg_snoc _ (by omega)]
      congr 1
  · rename_i hw
    simp only [ownOk, hw] at how
    split at hs'
    · rename_i hso
      cases hs'
      have hc : s.content c = [] := by
        simp only [St.content, St.granted, St.ownSeg, hw, hso, Nat.sub_self]
        simp only [List.range'_zero, List.flatMap_nil, List.nil_append]
        exact seg_nil _ (Nat.le_of_eq how.2.symm)
      have hc' : St.content c { s with opc := .idle, log := s.log ++ [.popNull] } = [] := by
        rw [← hc]
        simp only [St.content, St.granted, St.ownSeg, hw, St.at]
      rw [hc']; rw [hc] at hsp
      exact Spec.popNull hsp
    · cases hs'
      refine Eq.mp ?_ hsp
      congr 1
      simp only [St.content, St.granted, St.ownSeg, hw, St.at]
  · rename_i hw
    cases hs'
    refine Eq.mp ?_ hsp
    congr 1
    simp only [St.content, St.granted, St.ownSeg, hw, St.at]
  · rename_i e hw
    simp only [ownOk, hw] at how
    cases hs'
    refine Eq.mp ?_ hsp
    congr 1
    unfold St.content
    congr 1
    · symm; apply granted_inplace h <;> rfl
    · simp only [St.ownSeg, hw]
      exact seg_nil _ (Nat.le_of_eq how.2.1.symm)
  · rename_i hw
    simp only [ownOk, hw] at how
    obtain ⟨o, h1⟩ := how
    obtain ⟨p, hp⟩ : ∃ p, s.own = p + 1 := ⟨s.own - 1, by omega⟩
    have hp1 : s.own - 1 = p := by omega
    have hg := h.gr p (by omega) (by omega)
    cases hs'
    refine Eq.mp ?_ hsp
    congr 1
    simp only [St.content, St.granted, St.ownSeg, hw, List.append_nil]
    rw [hp1, range'_split (k := p) (b := s.own) (by omega) (by omega)]
    have e0 : s.own - (p + 1) = 0 := by omega
    simp only [e0, List.range'_zero, List.flatMap_append, List.flatMap_cons, List.flatMap_nil,
      List.append_nil]
    congr 1
    · apply flatMap_congr'
      intro k hk
      rw [List.mem_range'_1] at hk
      have : k % c.n ≠ p % c.n := fun e => by
        have := mod_inj (by omega : s.start ≤ k) (by omega) (by omega : s.start ≤ p) (by omega) e; omega
      simp [St.at, St.setB, upd, this]
    · simp only [St.setB, St.at, upd_same]
      have := hg.tl; simp only [St.at] at this; rw [this]; rfl
  · rename_i hw
    cases hs'
    refine Eq.mp ?_ hsp
    congr 1
    simp only [St.content, St.granted, St.ownSeg, hw, St.at]

theorem spec_thief {c : Cfg} {s s' : St} (h : Inv c s) (hsp : Spec s.log (s.content c)) (t : Nat)
    (hs' : thiefStep c s t = some s') : Spec s'.log (s'.content c) := by
  have hlo := h.lo
  have hhi := h.hi
  unfold thiefStep at hs'
  split at hs'
  · cases hs'
  · cases hs'; exact hsp
  · split at hs'
    · split at hs' <;> cases hs' <;> exact hsp
    · cases hs'; exact hsp
  · split at hs' <;> cases hs' <;> exact hsp
  · rename_i k0 r i hw
    split at hs'
    · rename_i hst
      have hib := h.idx t k0 r i (.inr hw)
      obtain ⟨k, hk1, hk2, hk3⟩ := window s.start (k0 % c.n) c.hn (Nat.mod_lt _ c.hn)
      have hat : s.at c k0 = s.at c k := by simp [St.at, hk3]
      have hset : ∀ b, s.setB c k0 b = s.setB c k b := by intro b; simp [St.setB, hk3]
      rw [hat] at hst
      rw [hat, hset] at hs'
      have hko : k < s.own := h.granted_of hk1 hk2 (by rw [hst]; exact hib)
      cases hs'
      have hne : ∀ k', s.start ≤ k' → k' < s.start + c.n → k' ≠ k → k' % c.n ≠ k % c.n :=
        fun k' h1 h2 h3 e => h3 (mod_inj h1 h2 hk1 hk2 e)
      have e1 : s.content c =
          ((List.range' s.start (k - s.start)).flatMap
            (fun k => seg (s.at c k) (s.at c k).stealTail.2 c.bs)) ++
          (s.at c k).buf i :: (seg (s.at c k) (i + 1) c.bs ++
            (List.range' (k + 1) (s.own - (k + 1))).flatMap
              (fun k => seg (s.at c k) (s.at c k).stealTail.2 c.bs) ++ s.ownSeg c) := by
        rw [St.content, St.granted, range'_split hk1 hko]
        simp only [List.flatMap_append, List.flatMap_cons, hst, List.append_assoc]
        rw [seg_cons _ hib]
        simp
      rw [e1] at hsp
      have := Spec.steal t _ hsp
      refine Eq.mp ?_ this
      congr 1
      rw [St.content, St.granted]
      show _ = List.flatMap _ (List.range' s.start (s.own - s.start)) ++ _
      rw [range'_split hk1 hko]
      simp only [List.flatMap_append, List.flatMap_cons, List.append_assoc]
      congr 1
      · apply flatMap_congr'
        intro k' hk'
        rw [List.mem_range'_1] at hk'
        simp [St.at, St.setB, upd, hne k' (by omega) (by omega) (by omega)]
      · congr 1
        · simp only [St.setB, St.at, upd_same]; rfl
        · congr 1
          · apply flatMap_congr'
            intro k' hk'
            rw [List.mem_range'_1] at hk'
            simp [St.at, St.setB, upd, hne k' (by omega) (by omega) (by omega)]
          · simp [St.ownSeg, St.at, St.setB, upd, hne s.own hlo hhi (by omega)]
    · cases hs'; exact hsp
  · cases hs'; exact hsp
  · rename_i j v hw
    cases hs'
    refine Eq.mp ?_ hsp
    congr 1
    have key : ∀ k, seg (s.at c k) = seg (St.at c { s with
        blk := upd s.blk j { s.blk j with stealCount := (s.blk j).stealCount + 1 }
        tpc := upd s.tpc t .idle
        ret := upd s.ret t (s.ret t ++ [v]) } k) ∧
        (s.at c k).stealTail = (St.at c { s with
        blk := upd s.blk j { s.blk j with stealCount := (s.blk j).stealCount + 1 }
        tpc := upd s.tpc t .idle
        ret := upd s.ret t (s.ret t ++ [v]) } k).stealTail ∧
        (s.at c k).head = (St.at c { s with
        blk := upd s.blk j { s.blk j with stealCount := (s.blk j).stealCount + 1 }
        tpc := upd s.tpc t .idle
        ret := upd s.ret t (s.ret t ++ [v]) } k).head ∧
        (s.at c k).tail = (St.at c { s with
        blk := upd s.blk j { s.blk j with stealCount := (s.blk j).stealCount + 1 }
        tpc := upd s.tpc t .idle
        ret := upd s.ret t (s.ret t ++ [v]) } k).tail := by
      intro k
      simp only [St.at, upd]
      split
      · rename_i e; rw [e]; exact ⟨rfl, rfl, rfl, rfl⟩
      · exact ⟨rfl, rfl, rfl, rfl⟩
    simp only [St.content, St.granted, St.ownSeg]
    simp only [(key _).1, (key _).2.1, (key _).2.2.1, (key _).2.2.2]
  · split at hs' <;> cases hs' <;> exact hsp

theorem spec_step {c : Cfg} {s s' : St} (h : Inv c s) (hn1 : N1 c s) (hsp : Spec s.log (s.content c))
    (a : Act) (hs' : step c s a = some s') : Spec s'.log (s'.content c) := by
  cases a with
  | owner => exact spec_owner h hsp hn1 hs'
  | thief t => exact spec_thief h hsp t hs'
  | push vs =>
    simp only [step] at hs'; split at hs' <;> cases hs'
    rename_i hw
    refine Eq.mp ?_ hsp
    congr 1
    simp only [St.content, St.granted, St.ownSeg, hw, St.at]
  | pop =>
    simp only [step] at hs'; split at hs' <;> cases hs'
    rename_i hw
    refine Eq.mp ?_ hsp
    congr 1
    simp only [St.content, St.granted, St.ownSeg, hw, St.at]
  | steal t =>
    simp only [step] at hs'
    split at hs'
    · split at hs' <;> cases hs'; exact hsp
    · cases hs'

theorem all_reach (c : Cfg) : ∀ s, Reach (init c) (step c) s →
    Inv c s ∧ N1 c s ∧ Spec s.log (s.content c) := by
  refine Reach.inv _ ⟨inv_init c, ?_, ?_⟩ (fun _ a _ h e =>
    ⟨inv_step h.1 a e, n1_step h.1 h.2.1 a e, spec_step h.1 h.2.1 h.2.2 a e⟩)
  · intro _; simp [init, St.at, upd, Blk.reclaimed]
  · have : (init c).content c = [] := by
      simp [St.content, St.granted, St.ownSeg, init, St.at, Blk.reclaimed, seg]
    rw [this]; exact Spec.nil

end Verif.Bwos
