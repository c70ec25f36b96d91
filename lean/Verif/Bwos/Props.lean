import Verif.Bwos.LastPush
/-!
# C39 — the work-stealing deque loses nothing, duplicates nothing and reports "empty" truthfully

`Reach (init c) (step c) s` ranges over every number of blocks `c.n ≥ 1`, every block size `c.bs ≥ 1`,
every number of thieves `c.N`, every sequence of calls and every interleaving of their steps.
-/
namespace Verif.Bwos

/-- The history of calls is, at every moment, a legal history of a deque with the present contents:
    `push_back` adds at the back, `pop_back` takes the newest value and returns null only if the deque
    is empty, a thief's claim removes one value that is in the deque, and a `push_back` that rejects
    values found the deque non-empty. -/
theorem C39_history (c : Cfg) (s : St) (h : Reach (init c) (step c) s) : Spec s.log (s.content c) :=
  (all_reach c s h).2.2

theorem spec_perm {l : List Ev} {xs : List Val} (h : Spec l xs) :
    (l.filterMap pushed).Perm (l.filterMap removed ++ xs) := by
  induction h with
  | nil => simp
  | push v _ ih =>
    simp only [List.filterMap_append, List.filterMap_cons, List.filterMap_nil, pushed, removed,
      List.append_nil]
    rw [← List.append_assoc]
    exact ih.append_right _
  | pushRet rest _ _ ih =>
    simp only [List.filterMap_append, List.filterMap_cons, List.filterMap_nil, pushed, removed,
      List.append_nil] at ih ⊢
    exact ih
  | @pop l xs v _ ih =>
    simp only [List.filterMap_append, List.filterMap_cons, List.filterMap_nil, pushed, removed,
      List.append_nil, List.append_assoc]
    refine ih.trans (List.Perm.append_left _ ?_)
    exact List.perm_append_comm
  | popNull _ ih =>
    simp only [List.filterMap_append, List.filterMap_cons, List.filterMap_nil, pushed, removed,
      List.append_nil] at ih ⊢
    exact ih
  | @steal l xs ys t v _ ih =>
    simp only [List.filterMap_append, List.filterMap_cons, List.filterMap_nil, pushed, removed,
      List.append_nil, List.append_assoc]
    refine ih.trans (List.Perm.append_left _ ?_)
    exact List.perm_middle

/-- Every value pushed is, exactly once, popped, claimed by a thief, or still in the queue. -/
theorem C39_exactly_once (c : Cfg) (s : St) (h : Reach (init c) (step c) s) :
    (s.log.filterMap pushed).Perm (s.log.filterMap removed ++ s.content c) :=
  spec_perm (C39_history c s h)

/-- A thief returns exactly the values it claimed, in order: a thief that is not inside a call has
    returned every value it ever claimed. -/
theorem C39_thief_returns (c : Cfg) (s : St) (h : Reach (init c) (step c) s) (t : Nat)
    (ht : s.tpc t = .idle) : s.ret t = s.log.filterMap (stolenBy t) := by
  have := (inv_reach c s h).pnd t
  simp [St.pend, ht] at this; exact this.symm

/-- Between its claim and its return a thief holds exactly one value, the one it claimed: nobody
    overwrites the slot. -/
theorem C39_thief_pending (c : Cfg) (s : St) (h : Reach (init c) (step c) s) (t : Nat) (v : Val)
    (ht : (∃ j i, s.tpc t = .rd j i ∧ (s.blk j).buf i = v) ∨ (∃ j, s.tpc t = .inc j v)) :
    s.log.filterMap (stolenBy t) = s.ret t ++ [v] := by
  have := (inv_reach c s h).pnd t
  rcases ht with ⟨j, i, h1, h2⟩ | ⟨j, h1⟩
  · simpa [St.pend, h1, h2] using this
  · simpa [St.pend, h1] using this

/-- The owner never writes the slot a thief is about to read (no data race on the ring buffer), and
    thieves read inside the buffer. -/
theorem C39_no_race (c : Cfg) (s : St) (h : Reach (init c) (step c) s) (t j i : Nat)
    (ht : s.tpc t = .rd j i) : i < c.bs ∧
      ∀ v vs b, s.opc = .put (v :: vs) b → ¬ (s.own % c.n = j ∧ b = i) := by
  have hI := inv_reach c s h
  have hlo := hI.lo
  have hhi := hI.hi
  constructor
  · obtain ⟨k, h1, h2, h3⟩ := window s.start j c.hn (hI.rdj t j i ht)
    subst h3
    have hi := hI.rdl t k i h1 h2 ht
    unfold lim at hi
    split at hi
    · have := (hI.gr k h1 (by assumption)).le; omega
    · by_cases hk : k = s.own
      · subst hk
        have ho := hI.ow
        simp only [ownOk] at ho
        split at ho
        all_goals first
          | (have a := ho.lo; have b := ho.hi; omega)
          | (have a := ho.1.lo; have b := ho.1.hi; omega)
          | (have a := ho.1.hd; omega)
          | (have a := ho.1.hd; rw [a] at hi; simp at hi)
      · have := (hI.fr k (by omega) h2).hd; omega
  · rintro v vs b hw ⟨rfl, rfl⟩
    have ho := hI.ow
    simp only [ownOk, hw] at ho
    have hi := hI.rdl t s.own b hlo hhi ht
    simp only [lim, Nat.lt_irrefl, if_false] at hi
    omega

/-- The owner reads and writes inside the buffer. -/
theorem C39_bounds (c : Cfg) (s : St) (h : Reach (init c) (step c) s) :
    (s.opc = .get → (s.at c s.own).tail ≤ c.bs) ∧
    (∀ v vs b, s.opc = .put (v :: vs) b → (s.at c s.own).tail ≤ c.bs ∧ b ≤ c.bs) := by
  have hI := inv_reach c s h
  have ho := hI.ow
  constructor
  · intro hw; simp only [ownOk, hw] at ho; exact ho.hi
  · intro v vs b hw; simp only [ownOk, hw] at ho; exact ⟨ho.1.hi, ho.2.2⟩

/-- `pop_back` returns null only when the queue is empty. -/
theorem C39_null_is_empty (c : Cfg) (s s' : St) (h : Reach (init c) (step c) s) (a : Act)
    (hs : step c s a = some s') (hl : s'.log = s.log ++ [.popNull]) : s'.content c = [] := by
  have := C39_history c s' (h.tail a hs)
  rw [hl] at this
  generalize hx : s.log ++ [.popNull] = l at this
  generalize s'.content c = xs at this
  cases this with
  | nil => simp at hx
  | popNull _ => rfl
  | _ => have := congrArg List.getLast? hx; simp at this

theorem spec_null {l : List Ev} {xs : List Val} (h : Spec l xs) (hl : lastOwn l = some .popNull) :
    xs = [] := by
  induction h with
  | nil => rfl
  | push v _ _ => simp [lastOwn_snoc] at hl
  | pushRet rest _ _ ih => simp only [lastOwn_snoc] at hl; exact ih hl
  | pop v _ _ => simp [lastOwn_snoc] at hl
  | popNull _ _ => rfl
  | steal t v _ ih =>
    simp only [lastOwn_snoc] at hl
    have := ih hl; simp at this

/-- After `pop_back` has returned null, the owner's next `push_back` of at least one value does not
    reject its first value, whatever the thieves do meanwhile. -/
theorem C39_push_after_null (c : Cfg) (s s' : St) (h : Reach (init c) (step c) s) (a : Act)
    (hs : step c s a = some s') (hlast : lastOwn s.log = some .popNull) (rest : List Val)
    (hl : s'.log = s.log ++ [.pushRet rest]) : rest = [] := by
  have h2 := C39_history c s' (h.tail a hs)
  have hlast' : lastOwn s'.log = some .popNull := by rw [hl, lastOwn_snoc]; exact hlast
  have h0 := spec_null h2 hlast'
  rw [hl] at h2
  generalize hx : s.log ++ [.pushRet rest] = l at h2
  generalize s'.content c = xs at h2 h0
  cases h2 with
  | pushRet r _ hr =>
    have := congrArg List.getLast? hx
    simp at this
    subst this
    by_cases e : rest = []
    · exact e
    · exact absurd h0 (hr e)
  | nil => simp at hx
  | _ => have := congrArg List.getLast? hx; simp at this

/-- If the owner's last accepted operation is the push of `v`, then `pop_back` returns `v` at once, no
    matter how many thieves are active. -/
theorem C39_push_pop (c : Cfg) (s : St) (h : Reach (init c) (step c) s) (v : Val)
    (hlast : lastOwn s.log = some (.push v)) (hp : s.opc = .get) :
    ∃ s', step c s .owner = some s' ∧ s'.log = s.log ++ [.pop v] ∧ s'.opc = .idle := by
  have hlp := lp_reach c s h v hlast
  simp only [lpOk, hp] at hlp
  obtain ⟨h1, h2⟩ := hlp
  simp only [step, ownerStep, hp]
  rw [if_neg (by omega)]
  exact ⟨_, rfl, by rw [h2], rfl⟩

/-- `push_back` rejects values only if the owner's block is filled to its last slot and either there is
    no other block or the oldest block of the ring still holds a value no thief has claimed. -/
theorem C39_reject_full (c : Cfg) (s s' : St) (h : Reach (init c) (step c) s) (a : Act)
    (hs : step c s a = some s') (r : Val) (rest : List Val)
    (hl : s'.log = s.log ++ [.pushRet (r :: rest)]) :
    (s.at c s.own).tail = c.bs ∧
      (c.n = 1 ∨ (s.own + 1 = s.start + c.n ∧ (s.at c s.start).stealTail.2 < c.bs)) := by
  have hI := inv_reach c s h
  have ho := hI.ow
  have hlo := hI.lo
  have hhi := hI.hi
  have hn := c.hn
  have key : ∀ e : Ev, s.log ++ [e] = s.log ++ [.pushRet (r :: rest)] → e = .pushRet (r :: rest) := by
    intro e he; simpa using he
  have key0 : s.log ≠ s.log ++ [.pushRet (r :: rest)] := by
    intro he; have := congrArg List.length he; simp at this
  cases a with
  | thief t =>
    exfalso
    simp only [step, thiefStep] at hs
    split at hs
    all_goals (try split at hs)
    all_goals (try split at hs)
    all_goals (cases hs)
    all_goals first
      | exact key0 hl
      | (have := key _ hl; cases this)
  | push vs => simp only [step] at hs; split at hs <;> cases hs; exact absurd hl key0
  | pop => simp only [step] at hs; split at hs <;> cases hs; exact absurd hl key0
  | steal t =>
    simp only [step] at hs; split at hs
    · split at hs <;> cases hs; exact absurd hl key0
    · cases hs
  | owner =>
    simp only [step, ownerStep] at hs
    split at hs
    case h_4 vs hw =>
      simp only [ownOk, hw] at ho
      refine ⟨ho.2.1, ?_⟩
      split at hs
      · rename_i hm
        left
        by_cases hk : s.own + 1 < s.own + c.n
        · have := mod_inj (by omega : s.own ≤ s.own + 1) hk (Nat.le_refl _) (by omega) hm; omega
        · omega
      · rename_i hm
        split at hs
        · cases hs; exact absurd hl key0
        · rename_i hst
          right
          have hfull : s.own + 1 = s.start + c.n := by
            by_cases hk : s.own + 1 < s.start + c.n
            · exact absurd (hI.fr (s.own + 1) (by omega) hk).st hst
            · omega
          refine ⟨hfull, ?_⟩
          have hso : s.start < s.own := by
            by_cases hso : s.start < s.own
            · exact hso
            · exfalso; apply hm; rw [hfull, show s.own = s.start by omega]; exact Nat.add_mod_right _ _
          have hg := hI.gr s.start (Nat.le_refl _) hso
          rcases Nat.lt_or_eq_of_le hg.le with e | e
          · exact e
          · exfalso; apply hst
            rw [hfull]
            have hd : (s.start + c.n) / c.n = s.start / c.n + 1 := Nat.add_div_right _ c.hn
            rw [hd]
            simp only [St.at, Nat.add_mod_right]
            refine Prod.ext ?_ e
            have := hg.rnd; simp only [St.at] at this ⊢; rw [this]; simp
    all_goals (try split at hs)
    all_goals (try split at hs)
    all_goals (cases hs)
    all_goals first
      | exact absurd hl key0
      | (have := key _ hl; cases this)

/-- `push_back` waits (in `reclaim`) only for thieves that have claimed a slot of the block being
    reused and not yet reported: when there is none the wait is over. -/
theorem C39_spin_ends (c : Cfg) (s : St) (h : Reach (init c) (step c) s) (vs : List Val)
    (hp : s.opc = .spin vs)
    (hno : ∀ t, ∀ j i v, s.tpc t ≠ .rd j i ∧ s.tpc t ≠ .inc j v) :
    ∃ s', step c s .owner = some s' ∧ s'.opc = .rTail vs := by
  have hI := inv_reach c s h
  have ho := hI.ow
  simp only [ownOk, hp] at ho
  have hz : claimed c s (s.own % c.n) = 0 := by
    rw [claimed, cnt_zero_iff]
    intro t _
    unfold TPc.holds
    split
    · rename_i j i e; exact absurd e (hno t j i 0).1
    · rename_i j v e; exact absurd e (hno t j 0 v).2
    · rfl
  have := ho.1.ct
  simp only [step, ownerStep, hp]
  rw [if_pos (by omega)]
  exact ⟨_, rfl, rfl⟩

/-! ## Non-vacuity -/

def cfg22 : Cfg := ⟨2, 2, 2, by decide, by decide⟩

/-- Push 4 values into 2 blocks of 2, then a 5th, which is rejected; two thieves steal; the 5th push
    then reuses the drained block and `pop_back` returns it. -/
def run1 : List Act :=
  [.push [1, 2, 3, 4, 5]] ++ List.replicate 3 .owner ++ List.replicate 9 .owner ++
  List.replicate 4 .owner ++
  [.steal 0, .thief 0, .thief 0, .thief 0, .thief 0, .steal 1, .thief 1, .thief 1, .thief 1, .thief 1]

example : ∃ s, Reach (init cfg22) (step cfg22) s ∧
    decide (s.content cfg22 = [3, 4] ∧ s.opc = .idle ∧
      s.log = [.push 1, .push 2, .push 3, .push 4, .pushRet [5], .steal 0 1, .steal 1 2] ∧
      s.tpc 0 = .rd 0 0) = true :=
  Reach.witness run1 _ (by decide)

def run2 : List Act := run1 ++ [.push [5], .owner, .owner, .owner, .owner, .owner, .owner]

/-- The owner waits in `reclaim` for the two thieves. -/
example : ∃ s, Reach (init cfg22) (step cfg22) s ∧
    decide (s.opc = .spin [5] ∧ s.own = 2 ∧ s.start = 1 ∧ (s.at cfg22 2).stealCount = 0) = true :=
  Reach.witness run2 _ (by decide)

def run3 : List Act := run2 ++ [.thief 0, .thief 0, .thief 1, .thief 1] ++ List.replicate 7 .owner ++
  [.pop, .owner, .pop, .owner, .owner, .owner, .owner, .owner, .owner, .owner, .pop, .owner,
   .pop, .owner, .owner]

/-- All is drained: the thieves returned 1 and 2, the owner popped 5, 4, 3 and then null. -/
example : ∃ s, Reach (init cfg22) (step cfg22) s ∧
    decide (s.ret 0 = [1] ∧ s.ret 1 = [2] ∧ s.content cfg22 = [] ∧
      lastOwn s.log = some .popNull) = true :=
  Reach.witness run3 _ (by decide)

/-- The blocks open to thieves, each with the values it still holds, oldest first. -/
def St.openBlocks (c : Cfg) (s : St) : List (List Val) :=
  (List.range' s.start (s.own - s.start)).map (fun k => seg (s.at c k) (s.at c k).stealTail.2 c.bs)

/-- The open blocks, in order, then the owner's block: the contents of the queue, oldest first. -/
theorem content_blocks (c : Cfg) (s : St) :
    s.content c = (s.openBlocks c).flatten ++ s.ownSeg c := by
  simp [St.content, St.granted, St.openBlocks, List.flatMap_def]

/-- A thief takes the oldest value its block still holds, and touches no other block. -/
theorem C39_steal_oldest (c : Cfg) (s s' : St) (h : Reach (init c) (step c) s) (a : Act)
    (hs : step c s a = some s') (t : Nat) (v : Val) (hl : s'.log = s.log ++ [.steal t v]) :
    ∃ l m r, s.openBlocks c = l ++ (v :: m) :: r ∧ s'.openBlocks c = l ++ m :: r ∧
      s'.ownSeg c = s.ownSeg c := by
  have h := inv_reach c s h
  have hlo := h.lo
  have hhi := h.hi
  have nolog : ∀ x : List Ev, ¬ (x = x ++ [Ev.steal t v]) := by
    intro x e; have := congrArg List.length e; simp at this
  have nolog1 : ∀ (x : List Ev) e, e ≠ Ev.steal t v → ¬ (x ++ [e] = x ++ [Ev.steal t v]) := by
    intro x e he e1; simp at e1; exact he e1
  cases a with
  | thief t0 =>
    simp only [step] at hs
    unfold thiefStep at hs
    split at hs
    · cases hs
    · cases hs; exact absurd hl (nolog _)
    · split at hs
      · split at hs <;> cases hs <;> exact absurd hl (nolog _)
      · cases hs; exact absurd hl (nolog _)
    · split at hs <;> cases hs <;> exact absurd hl (nolog _)
    · rename_i k0 r i hw
      split at hs
      · rename_i hst
        have hib := h.idx t0 k0 r i (.inr hw)
        obtain ⟨k, hk1, hk2, hk3⟩ := window s.start (k0 % c.n) c.hn (Nat.mod_lt _ c.hn)
        have hat : s.at c k0 = s.at c k := by simp [St.at, hk3]
        have hset : ∀ b, s.setB c k0 b = s.setB c k b := by intro b; simp [St.setB, hk3]
        rw [hat] at hst
        rw [hat, hset] at hs
        have hko : k < s.own := h.granted_of hk1 hk2 (by rw [hst]; exact hib)
        cases hs
        have hne : ∀ k', s.start ≤ k' → k' < s.start + c.n → k' ≠ k → k' % c.n ≠ k % c.n :=
          fun k' h1 h2 h3 e => h3 (mod_inj h1 h2 hk1 hk2 e)
        simp only [List.append_cancel_left_eq, List.cons.injEq, and_true, Ev.steal.injEq] at hl
        obtain ⟨rfl, rfl⟩ := hl
        refine ⟨(List.range' s.start (k - s.start)).map
            (fun k => seg (s.at c k) (s.at c k).stealTail.2 c.bs), seg (s.at c k) (i + 1) c.bs,
            (List.range' (k + 1) (s.own - (k + 1))).map
              (fun k => seg (s.at c k) (s.at c k).stealTail.2 c.bs), ?_, ?_, ?_⟩
        · rw [St.openBlocks, range'_split hk1 hko]
          simp only [List.map_append, List.map_cons, hst]
          rw [seg_cons _ hib]
        · rw [St.openBlocks]
          show List.map _ (List.range' s.start (s.own - s.start)) = _
          rw [range'_split hk1 hko]
          simp only [List.map_append, List.map_cons]
          congr 1
          · apply List.map_congr_left
            intro k' hk'
            rw [List.mem_range'_1] at hk'
            simp [St.at, St.setB, upd, hne k' (by omega) (by omega) (by omega)]
          · congr 1
            · simp only [St.setB, St.at, upd_same]; rfl
            · apply List.map_congr_left
              intro k' hk'
              rw [List.mem_range'_1] at hk'
              simp [St.at, St.setB, upd, hne k' (by omega) (by omega) (by omega)]
        · simp [St.ownSeg, St.at, St.setB, upd, hne s.own hlo hhi (by omega)]
      · cases hs; exact absurd hl (nolog _)
    · cases hs; exact absurd hl (nolog _)
    · cases hs; exact absurd hl (nolog _)
    · split at hs <;> cases hs <;> exact absurd hl (nolog _)
  | owner =>
    simp only [step] at hs
    unfold ownerStep at hs
    repeat' split at hs
    all_goals cases hs
    all_goals first | exact absurd hl (nolog _) | exact absurd hl (nolog1 _ _ (by simp))
  | push vs =>
    simp only [step] at hs; split at hs <;> cases hs; exact absurd hl (nolog _)
  | pop =>
    simp only [step] at hs; split at hs <;> cases hs; exact absurd hl (nolog _)
  | steal t =>
    simp only [step] at hs
    split at hs
    · split at hs <;> cases hs; exact absurd hl (nolog _)
    · cases hs

end Verif.Bwos
