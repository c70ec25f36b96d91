import Verif.Associate.Inv
/-! # The invariant is kept by every call -/
namespace Verif.Associate
set_option maxHeartbeats 4000000

variable {N : Nat} {s : St}

theorem inv_make (h : Inv N s) {i : Nat} (e : Orc) (hi : i < N) (ha : s.cell i = .absent) : Inv N (make s i e).1 := by
  have hd := (fresh_dead h 0).1
  have hb := h.bad
  simp only [Nat.add_zero] at hd
  unfold make
  split
  · exact h
  split
  · refine inv_keep h rfl rfl rfl rfl (fun o => ?_) (by simp [kill, build, hb, hd])
    simp only [kill, build, dead_inc, lt1_succ]
    omega
  split
  · refine inv_put h hi (x := .data true s.nobj) rfl (by simp [put, cover, grant, build, ha, assocW])
      (by simp [put, cover, grant, build, ha, assocW]) (by simp [put, cover, grant, build, ha, blkW])
      (fun o => ?_) hb (by simp)
    simp only [put, cover, grant, build, ha, ownW, lt1_succ]
    omega
  · refine inv_put h hi (x := .data false 0) rfl (by simp [put, kill, build, ha, assocW])
      (by simp [put, kill, build, ha, assocW]) (by simp [put, kill, build, ha, blkW])
      (fun o => ?_) (by simp [put, kill, build, hb, hd]) (by simp)
    simp only [put, kill, build, ha, ownW, dead_inc, lt1_succ]
    omega

theorem inv_copyD (h : Inv N s) {i : Nat} (a : Bool) (e : Orc) (hi : i < N) (ha : s.cell i = .absent) :
    Inv N (copyD s i a e).1 := by
  have hb := h.bad
  unfold copyD
  split
  · exact h
  split
  · split
    · exact inv_keep h rfl (by simp [release, grant]) rfl rfl
        (fun o => rfl) (by simp [release, grant, hb])
    · refine inv_put h hi (x := .data true s.nobj) rfl (by simp [put, cover, grant, build, ha, assocW])
        (by simp [put, cover, grant, build, ha, assocW]) (by simp [put, cover, grant, build, ha, blkW])
        (fun o => ?_) hb (by simp)
      simp only [put, cover, grant, build, ha, ownW, lt1_succ]
      omega
  · exact inv_put h hi (x := .data false 0) rfl (by simp [put, ha, assocW])
      (by simp [put, ha, assocW]) (by simp [put, ha, blkW]) (fun o => by simp [put, ha, ownW]) hb (by simp)

/-- Taking the association and the sender out of `j` when the constructor throws. -/
theorem inv_throw (h : Inv N s) {j o : Nat} (hj : j < N) (hc : s.cell j = .data true o) :
    Inv N (put (kill (release s) o true) j (.data false 0)) := by
  have hb := h.bad
  obtain ⟨f1, f2, f3, f4⟩ := cell_facts h hj
  simp only [hc, assocW, blkW, ownW] at f1 f2 f3 f4
  obtain ⟨g1, g2⟩ := f4 o (eq1_self o)
  refine inv_put h hj (x := .data false 0) rfl ?_ ?_ ?_ (fun p => ?_) ?_ (by simp)
  · simp only [put, kill, release, hc, assocW]; omega
  · simp only [put, kill, release, hc, assocW, if_true]; omega
  · simp [put, kill, release, hc, blkW]
  · simp only [put, kill, release, hc, ownW, dead_inc, lt1_succ]
    omega
  · simp only [put, kill, release, hb, Bool.or_eq_false_iff, decide_eq_false_iff_not, Bool.and_eq_false_imp, Bool.false_or]
    refine ⟨⟨⟨?_, ?_⟩, ?_⟩, ?_⟩ <;> first | omega | (intro _; omega)

/-- … and when it succeeds. -/
theorem inv_take (h : Inv N s) {i j o : Nat} (hi : i < N) (hj : j < N) (ha : s.cell i = .absent)
    (hc : s.cell j = .data true o) {x : Cell} (hx1 : assocW x = 1) (hx2 : ∀ p, ownW p x = eq1 s.nobj p)
    (hx3 : blkW x = 0) (hx4 : ∀ c, x = .op c → okOp c) :
    Inv N (put (put (kill (cover (build s)) o true) j (.data false 0)) i x) := by
  have hb := h.bad
  obtain ⟨f1, f2, f3, f4⟩ := cell_facts h hj
  simp only [hc, assocW, blkW, ownW] at f1 f2 f3 f4
  obtain ⟨g1, g2⟩ := f4 o (eq1_self o)
  have hij : i ≠ j := by intro e; subst e; rw [ha] at hc; cases hc
  refine inv_put2 h hi hj hij ha rfl (x := x) (y := .data false 0) ?_ ?_ ?_ (fun p => ?_) ?_ hx4 (by simp)
  · rw [hx1, hc]; simp only [put, kill, cover, build, assocW]
  · rw [hx1, hc]; simp only [put, kill, cover, build, assocW, if_true]; omega
  · rw [hx3, hc]; simp [put, kill, cover, build, blkW]
  · rw [hx2, hc]; simp only [put, kill, cover, build, ownW, dead_inc, lt1_succ]
    omega
  · simp only [put, kill, cover, build, hb, Bool.or_eq_false_iff, decide_eq_false_iff_not, Bool.and_eq_false_imp, Bool.false_or]
    refine ⟨⟨?_, ?_⟩, ?_⟩ <;> first | omega | (intro _; omega)

theorem inv_moveD (h : Inv N s) {i j : Nat} (a : Bool) (o : Nat) (e : Orc) (hi : i < N) (hj : j < N)
    (ha : s.cell i = .absent) (hc : s.cell j = .data a o) : Inv N (moveD s i j a o e).1 := by
  unfold moveD
  split
  · rename_i h1; subst h1
    split
    · exact inv_throw h hj hc
    · exact inv_take h hi hj ha hc rfl (fun _ => rfl) rfl (by simp)
  · exact inv_put h hi (x := .data false 0) rfl (by simp [put, ha, assocW])
      (by simp [put, ha, assocW]) (by simp [put, ha, blkW]) (fun o => by simp [put, ha, ownW]) h.bad (by simp)

theorem inv_conn (h : Inv N s) {i j : Nat} (a : Bool) (o : Nat) (e : Orc) (hi : i < N) (hj : j < N)
    (ha : s.cell i = .absent) (hc : s.cell j = .data a o) : Inv N (conn s i j a o e).1 := by
  unfold conn
  split
  · rename_i h1; subst h1
    split
    · exact inv_throw h hj hc
    · exact inv_take h hi hj ha hc (by simp [assocW]) (fun _ => by simp [ownW]) rfl
        (fun c hc => by cases hc; exact okOp_new _ _)
  · exact inv_put h hi (x := .op ⟨false, 0, false, 0, false, 0, false⟩) rfl (by simp [put, ha, assocW])
      (by simp [put, ha, assocW]) (by simp [put, ha, blkW]) (fun o => by simp [put, ha, ownW]) h.bad
      (fun c hc => by cases hc; exact okOp_new _ _)

theorem inv_connC (h : Inv N s) {i : Nat} (a : Bool) (e : Orc) (hi : i < N) (ha : s.cell i = .absent) :
    Inv N (connC s i a e).1 := by
  have hb := h.bad
  have hd := (fresh_dead h 0).1
  simp only [Nat.add_zero] at hd
  unfold connC
  split
  · exact h
  split
  · split
    · exact inv_keep h rfl (by simp [release, grant]) rfl rfl
        (fun o => rfl) (by simp [release, grant, hb])
    split
    · refine inv_keep h rfl (by simp [kill, release, cover, build, grant]) (by simp [kill, release, cover, build, grant]) rfl
        (fun o => ?_) (by simp [kill, release, cover, build, grant, hb, hd])
      simp only [kill, release, cover, build, grant, dead_inc, lt1_succ]
      omega
    · refine inv_put h hi (x := .op ⟨true, s.nobj + 1, false, 0, false, 0, false⟩) rfl
        (by simp [put, kill, cover, grant, build, ha, assocW])
        (by simp [put, kill, cover, grant, build, ha, assocW]) (by simp [put, kill, cover, grant, build, ha, blkW])
        (fun o => ?_) (by simp [put, kill, cover, grant, build, hb, hd]; omega)
        (fun c hc => by cases hc; exact okOp_new _ _)
      simp only [put, kill, cover, grant, build, ha, ownW, dead_inc, lt1_succ, if_true]
      omega
  · exact inv_put h hi (x := .op ⟨false, 0, false, 0, false, 0, false⟩) rfl (by simp [put, ha, assocW])
      (by simp [put, ha, assocW]) (by simp [put, ha, blkW]) (fun o => by simp [put, ha, ownW]) h.bad
      (fun c hc => by cases hc; exact okOp_new _ _)

/-- Destroying something with an association. -/
theorem inv_del (h : Inv N s) {i o : Nat} (hi : i < N) (h1 : assocW (s.cell i) = 1) (h2 : blkW (s.cell i) = 0)
    (h3 : ∀ p, ownW p (s.cell i) = eq1 o p) : Inv N (put (release (kill s o true)) i .absent) := by
  have hb := h.bad
  obtain ⟨f1, f2, f3, f4⟩ := cell_facts h hi
  obtain ⟨g1, g2⟩ := f4 o (by rw [h3]; exact eq1_self o)
  rw [h1] at f1 f2
  refine inv_put h hi (x := .absent) rfl ?_ ?_ ?_ (fun p => ?_) ?_ (by simp)
  · rw [h1]; simp only [put, kill, release, assocW]; omega
  · rw [h1]; simp only [put, kill, release, assocW, if_true]; omega
  · rw [h2]; simp [put, kill, release, blkW]
  · rw [h3]; simp only [put, kill, release, ownW, dead_inc, lt1_succ]
    omega
  · simp only [put, kill, release, hb, Bool.or_eq_false_iff, decide_eq_false_iff_not, Bool.and_eq_false_imp, Bool.false_or]
    refine ⟨⟨⟨?_, ?_⟩, ?_⟩, ?_⟩ <;> first | omega | (intro _; omega)

/-- Destroying something without. -/
theorem inv_del0 (h : Inv N s) {i : Nat} (hi : i < N) (h1 : assocW (s.cell i) = 0) (h2 : blkW (s.cell i) = 0)
    (h3 : ∀ p, ownW p (s.cell i) = 0) : Inv N (put s i .absent) :=
  inv_put h hi (x := .absent) rfl (by rw [h1]; rfl) (by rw [h1]; rfl) (by rw [h2]; rfl)
    (fun p => by rw [h3]; rfl) h.bad (by simp)

theorem inv_spawn (h : Inv N s) {i : Nat} (e : Orc) (hi : i < N) (ha : s.cell i = .absent) : Inv N (spawn s i e).1 := by
  have hd := (fresh_dead h 0).1
  have hb := h.bad
  simp only [Nat.add_zero] at hd
  have hk : Inv N (free (kill (build (alloc s)) s.nobj false)) := by
    refine inv_keep h rfl rfl rfl (by simp [free, alloc, kill, build]) (fun o => ?_) 
      (by simp [kill, build, free, alloc, hb, hd])
    simp only [kill, build, free, alloc, dead_inc, lt1_succ]
    omega
  unfold spawn
  split
  · exact h
  split
  · exact inv_keep h rfl rfl rfl (by simp [free, alloc])
      (fun o => rfl) (by simp [free, alloc, hb])
  split
  · exact hk
  split
  · refine inv_put h hi (x := .spawn s.nobj) rfl (by simp [put, cover, grant, build, alloc, ha, assocW])
      (by simp [put, cover, grant, build, alloc, ha, assocW]) (by simp [put, cover, grant, build, alloc, ha, blkW])
      (fun o => ?_) hb (by simp)
    simp only [put, cover, grant, build, alloc, ha, ownW, lt1_succ]
    omega
  · exact hk

theorem inv_spawnDone (h : Inv N s) {i o : Nat} (hi : i < N) (hc : s.cell i = .spawn o) : Inv N (spawnDone s i o) := by
  have hb := h.bad
  obtain ⟨f1, f2, f3, f4⟩ := cell_facts h hi
  simp only [hc, assocW, blkW, ownW] at f1 f2 f3 f4
  obtain ⟨g1, g2⟩ := f4 o (eq1_self o)
  unfold spawnDone
  refine inv_put h hi (x := .absent) rfl ?_ ?_ ?_ (fun p => ?_) ?_ (by simp)
  · simp only [put, kill, release, free, hc, assocW]; omega
  · simp only [put, kill, release, free, hc, assocW, if_true]; omega
  · simp only [put, kill, release, free, hc, blkW]; omega
  · simp only [put, kill, release, free, hc, ownW, dead_inc, lt1_succ]
    omega
  · simp only [put, kill, release, free, hb, Bool.or_eq_false_iff, decide_eq_false_iff_not, Bool.and_eq_false_imp, Bool.false_or]
    refine ⟨⟨⟨⟨?_, ?_⟩, ?_⟩, ?_⟩, ?_⟩ <;> first | omega | (intro _; omega)

/-- An operation changes its own flags only. -/
theorem inv_op (h : Inv N s) {i : Nat} (hi : i < N) {c d : OpC} (hc : s.cell i = .op c) (h1 : d.a = c.a) (h2 : d.o = c.o)
    (h3 : okOp d) : Inv N (put s i (.op d)) :=
  inv_put h hi (x := .op d) rfl (by simp [put, hc, assocW, h1]) (by simp [put, hc, assocW, h1])
    (by simp [put, hc, blkW]) (fun o => by simp [put, hc, ownW, h1, h2]) h.bad (fun _ e => by cases e; exact h3)

theorem okOp_start {c : OpC} (h : okOp c) (hs : c.st = false) : okOp (startO c) := by
  obtain ⟨h1, h2, h3⟩ := h
  obtain ⟨e1, e2, e3, e4⟩ := h1 hs
  unfold startO
  split
  · rename_i ha
    refine ⟨fun h => by simp at h, fun _ h => by simp [ha] at h, fun _ _ => ?_⟩
    simp [e1, e2, e3, e4]
  · rename_i ha
    refine ⟨fun h => by simp at h, fun _ _ => ?_, fun _ h => absurd h ha⟩
    simp [e1, e2, e3]

theorem okOp_child {c : OpC} (h : okOp c) (h1 : c.kids = 1) (h2 : c.kd = false) :
    okOp { c with kd := true, dn := c.dn + 1 } := by
  obtain ⟨e1, e2, e3⟩ := h
  have hs : c.st = true := by
    cases h : c.st with
    | true => rfl
    | false => have := (e1 h).1; omega
  have ha : c.a = true := by
    cases h : c.a with
    | true => rfl
    | false => have := (e2 hs h).1; omega
  obtain ⟨g1, g2, g3⟩ := e3 hs ha
  rw [h2] at g3
  refine ⟨fun h => ?_, fun _ h => ?_, fun _ _ => ⟨h1, g2, ?_⟩⟩
  · simp [hs] at h
  · simp [ha] at h
  · simp at g3; simp [g3]

theorem inv_step {a : Act} {s' : St} (h : Inv N s) (hs : step N s a = some s') : Inv N s' := by
  cases a with
  | make i e =>
    simp only [step] at hs
    split at hs <;> cases hs
    rename_i hg
    exact inv_make h e hg.1 hg.2
  | copy i j e =>
    simp only [step] at hs
    split at hs
    · rename_i hg
      split at hs <;> cases hs
      exact inv_copyD h _ e hg.1 hg.2.2
    · cases hs
  | move i j e =>
    simp only [step] at hs
    split at hs
    · rename_i hg
      split at hs <;> cases hs
      rename_i hc
      exact inv_moveD h _ _ e hg.1 hg.2.1 hg.2.2 hc
    · cases hs
  | conn i j e =>
    simp only [step] at hs
    split at hs
    · rename_i hg
      split at hs <;> cases hs
      rename_i hc
      exact inv_conn h _ _ e hg.1 hg.2.1 hg.2.2 hc
    · cases hs
  | connC i j e =>
    simp only [step] at hs
    split at hs
    · rename_i hg
      split at hs <;> cases hs
      exact inv_connC h _ e hg.1 hg.2.2
    · cases hs
  | start i =>
    simp only [step] at hs
    split at hs
    · rename_i hg
      split at hs
      · rename_i c hc
        split at hs <;> cases hs
        rename_i hst
        have hst : c.st = false := by simpa using hst
        refine inv_op h hg hc ?_ ?_ (okOp_start (h.ops i c hc) hst) <;> (unfold startO; split <;> rfl)
      · cases hs
    · cases hs
  | child i =>
    simp only [step] at hs
    split at hs
    · rename_i hg
      split at hs
      · rename_i c hc
        split at hs <;> cases hs
        rename_i hk
        exact inv_op h hg hc rfl rfl (okOp_child (h.ops i c hc) hk.1 hk.2)
      · cases hs
    · cases hs
  | del i =>
    simp only [step] at hs
    split at hs
    · rename_i hg
      split at hs
      · rename_i a o hc
        cases hs
        unfold delD
        split
        · rename_i ha; subst ha
          exact inv_del h hg (by rw [hc]; rfl) (by rw [hc]; rfl) (fun p => by rw [hc]; rfl)
        · rename_i ha
          have ha : a = false := by simpa using ha
          subst ha
          exact inv_del0 h hg (by rw [hc]; rfl) (by rw [hc]; rfl) (fun p => by rw [hc]; rfl)
      · rename_i c hc
        split at hs <;> cases hs
        unfold delO
        split
        · rename_i ha
          exact inv_del h hg (by rw [hc]; simp [assocW, ha]) (by rw [hc]; rfl) (fun p => by rw [hc]; simp [ownW, ha])
        · rename_i ha
          exact inv_del0 h hg (by rw [hc]; simp [assocW, ha]) (by rw [hc]; rfl) (fun p => by rw [hc]; simp [ownW, ha])
      · cases hs
    · cases hs
  | spawn i e =>
    simp only [step] at hs
    split at hs <;> cases hs
    rename_i hg
    exact inv_spawn h e hg.1 hg.2
  | spawned i =>
    simp only [step] at hs
    split at hs
    · rename_i hg
      split at hs <;> cases hs
      rename_i hc
      exact inv_spawnDone h hg hc
    · cases hs
  | close =>
    simp only [step] at hs
    cases hs
    exact ⟨h.cnt, h.cov, h.blk, h.own, h.bad, h.ops⟩

end Verif.Associate
