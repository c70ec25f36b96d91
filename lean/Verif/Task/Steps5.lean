import Verif.Task.Steps4
namespace Verif.Task
set_option maxHeartbeats 4000000

/-- `co_await` of a task. -/
theorem inv_call {b0 : Body} {s : St} {i : Nat} {t : List Nat} {c : Cfg} {b : Body} {k : Out → Body}
    (h : Inv b0 s (i :: t)) (hc : s.ctl = .run i) (hb : (s.fr i).body = .call c b k) :
    Inv b0 { newTask s i c b k with bad := s.bad || !(s.fr i).alive } (s.n :: i :: t) := by
  have htop : top s.ctl = some i := by rw [hc]; rfl
  have hlv := h.live i (by simp)
  have hin : i < s.n := h.lt i (by simp)
  have hcn : (s.fr i).child = none := by
    cases hx : (s.fr i).child with
    | none => rfl
    | some d => have := (h.child i d htop hx).1; rw [hc] at this; cases this
  have hni := not_mem_tail h.srt
  have hnl : ∀ j ∈ i :: t, j ≠ s.n := fun j hj => by have := h.lt j hj; omega
  have hino : ¬ i = s.n := by omega
  have hdj : ∀ (f g : Fr) j, j ≠ i → j ≠ s.n → upd (upd s.fr i f) s.n g j = s.fr j := by
    intro f g j h1 h2; simp [upd, h1, h2]
  have hsi : ∀ (g : Fr), upd (upd s.fr i { s.fr i with k := k, child := some s.n }) s.n g i =
      { s.fr i with k := k, child := some s.n } := by
    intro g; simp [upd, hino]
  -- everything but `k` and `child`
  have hall : ∀ (g : Fr) j, j ≠ s.n →
      (upd (upd s.fr i { s.fr i with k := k, child := some s.n }) s.n g j).cb = (s.fr j).cb ∧
      (upd (upd s.fr i { s.fr i with k := k, child := some s.n }) s.n g j).reg = (s.fr j).reg ∧
      (upd (upd s.fr i { s.fr i with k := k, child := some s.n }) s.n g j).req = (s.fr j).req ∧
      (upd (upd s.fr i { s.fr i with k := k, child := some s.n }) s.n g j).cfg = (s.fr j).cfg ∧
      (upd (upd s.fr i { s.fr i with k := k, child := some s.n }) s.n g j).tok = (s.fr j).tok ∧
      (upd (upd s.fr i { s.fr i with k := k, child := some s.n }) s.n g j).parent = (s.fr j).parent ∧
      (upd (upd s.fr i { s.fr i with k := k, child := some s.n }) s.n g j).alive = (s.fr j).alive ∧
      (upd (upd s.fr i { s.fr i with k := k, child := some s.n }) s.n g j).destroyed = (s.fr j).destroyed ∧
      (upd (upd s.fr i { s.fr i with k := k, child := some s.n }) s.n g j).owns = (s.fr j).owns ∧
      (upd (upd s.fr i { s.fr i with k := k, child := some s.n }) s.n g j).awAlive = (s.fr j).awAlive ∧
      (upd (upd s.fr i { s.fr i with k := k, child := some s.n }) s.n g j).errors = (s.fr j).errors ∧
      (upd (upd s.fr i { s.fr i with k := k, child := some s.n }) s.n g j).stopped = (s.fr j).stopped := by
    intro g j hj
    by_cases he : j = i
    · subst he; rw [hsi]; simp
    · rw [hdj _ _ _ he hj]; simp
  have hout : ∀ j ∈ i :: t, outer { newTask s i c b k with bad := s.bad || !(s.fr i).alive } j = outer s j := by
    intro j hj
    unfold outer newTask
    simp only
    rw [(hall _ j (hnl j hj)).2.2.2.2.2.1]
    split
    · rename_i p hp
      have hp' := List.mem_of_mem_tail (Link_parent_mem h.link j hj p hp)
      rw [(hall _ p (hnl p hp')).2.2.2.2.1]
    · rfl
  have hrq : ∀ j ∈ i :: t, reqOf { newTask s i c b k with bad := s.bad || !(s.fr i).alive } (outer s j) =
      reqOf s (outer s j) := by
    intro j hj
    cases ho : outer s j with
    | none => rfl
    | some q =>
      have hq := List.mem_of_mem_tail (outer_lt h hj ho)
      simp only [reqOf, newTask]
      exact (hall _ q (hnl q hq)).2.2.1
  have hmem : ∀ j, j ∈ s.n :: i :: t → j = s.n ∨ (j ≠ s.n ∧ j ∈ i :: t) := by
    intro j hj
    rcases List.mem_cons.1 hj with he | hj
    · exact .inl he
    · exact .inr ⟨hnl j hj, hj⟩
  constructor
  · simp [h.bad, hlv.1]
  · rfl
  · refine List.pairwise_cons.2 ⟨?_, h.srt⟩
    intro j hj; exact h.lt j hj
  · intro j hj
    simp only [newTask]
    rcases hmem j hj with he | ⟨_, hj⟩
    · omega
    · have := h.lt j hj; omega
  · intro j hj
    simp only [newTask]
    rcases hmem j hj with he | ⟨hne, hj⟩
    · subst he; simp [fr0]
    · obtain ⟨_, _, _, _, _, _, h7, h8, h9, h10, _, _⟩ := hall (fr0 c b (if c.own then some s.n else (s.fr i).tok) (some i) (c.sch.getD (s.fr i).sch)) j hne
      rw [h7, h8, h9, h10]; exact h.live j hj
  · intro j hj hl
    simp only [newTask] at hj ⊢
    have hne : j ≠ s.n := by intro he; subst he; simp at hl
    obtain ⟨h1, _, _, _, _, _, h7, h8, h9, h10, _, _⟩ := hall (fr0 c b (if c.own then some s.n else (s.fr i).tok) (some i) (c.sch.getD (s.fr i).sch)) j hne
    rw [h7, h8, h9, h1]
    exact h.gone j (by omega) (fun hx => hl (List.mem_cons_of_mem _ hx))
  · intro j hj
    simp only [newTask] at hj ⊢
    have hne : j ≠ s.n := by omega
    obtain ⟨h1, _, _, _, _, _, h7, h8, h9, h10, _, _⟩ := hall (fr0 c b (if c.own then some s.n else (s.fr i).tok) (some i) (c.sch.getD (s.fr i).sch)) j hne
    rw [h7, h8, h9, h10, h1]
    exact h.fresh j (by omega)
  · intro j hj hl
    exfalso
    simp only [newTask] at hj
    have hne : j ≠ s.n := by intro he; subst he; simp at hl
    rw [(hall _ j hne).2.2.2.2.2.2.2.2.2.1] at hj
    obtain ⟨p, hp, hp2⟩ := h.aws j hj (fun hx => hl (List.mem_cons_of_mem _ hx))
    rw [htop] at hp; cases hp; rw [hcn] at hp2; cases hp2
  · simp only [newTask]
    refine ⟨?_, ?_, ?_, ?_⟩
    · simp [fr0]
    · unfold tokOf
      rw [hsi]
      simp [fr0]
    · rw [hsi]
    · refine Link_congr (fr := s.fr) ?_ ?_ h.link
      · intro j hj
        have := hall (fr0 c b (if c.own then some s.n else (s.fr i).tok) (some i) (c.sch.getD (s.fr i).sch)) j (hnl j hj)
        exact ⟨this.2.2.2.2.2.1, this.2.2.2.2.1, this.2.2.2.1⟩
      · intro j hj
        simp only [List.tail_cons] at hj
        rw [hdj _ _ _ (top_ne h hj) (hnl j (by simp [hj]))]
  · intro p d hp hd
    simp only [newTask, top, Option.some.injEq] at hp hd; subst hp
    simp [fr0] at hd
  · intro j hj
    simp only [newTask]
    rcases hmem j hj with he | ⟨hne, hj⟩
    · subst he; simp [fr0, top, noCb]
    · have h1 := hall (fr0 c b (if c.own then some s.n else (s.fr i).tok) (some i) (c.sch.getD (s.fr i).sch)) j hne
      rw [h1.1, h1.2.2.2.1, h.cbs j hj, hc]
      have : ¬ s.n = j := fun he => hne he.symm
      simp [top, noCb, this]
  · intro j hj hcj
    rcases hmem j hj with he | ⟨hne, hj⟩
    · subst he; simp [newTask, fr0] at hcj
    · rw [hout j hj]
      simp only [newTask] at hcj ⊢
      have h1 := hall (fr0 c b (if c.own then some s.n else (s.fr i).tok) (some i) (c.sch.getD (s.fr i).sch)) j hne
      rw [h1.1] at hcj; rw [h1.2.1]; exact h.regs j hj hcj
  · intro j hj hh
    simp only [newTask]
    rcases hmem j hj with he | ⟨hne, hj⟩
    · subst he; simp [fr0]
    · have h1 := hall (fr0 c b (if c.own then some s.n else (s.fr i).tok) (some i) (c.sch.getD (s.fr i).sch)) j hne
      rw [h1.2.2.2.2.2.2.2.2.2.2.1, h1.2.2.2.2.2.2.2.2.2.2.2]
      exact h.flags j hj (fun _ => by rw [hc]; rfl)
  · intro j hj; simp [newTask] at hj
  · intro r
    have h1 := h.sem r
    rw [hc] at h1
    simp only [newTask, List.tail_cons] at h1 ⊢
    simp only [sem] at h1
    rw [hb] at h1
    rw [h1]
    have hu : ∀ (g : Fr) o r, up (upd (upd s.fr i { s.fr i with k := k, child := some s.n }) s.n g) t o r = up s.fr t o r := by
      intro g
      refine up_congr ?_
      intro j hj
      rw [hdj _ _ _ (top_ne h hj) (hnl j (by simp [hj]))]
    have hu2 : ∀ (g : Fr) o r, o ≠ .stopped →
        up (upd (upd s.fr i { s.fr i with k := k, child := some s.n }) s.n g) (i :: t) o r =
        (den (k o) r).bind fun x => up s.fr t x.1 x.2 := by
      intro g o r ho
      cases o <;> simp only [up, hsi, hu]
      exact absurd rfl ho
    have hu3 : ∀ (g : Fr) r,
        up (upd (upd s.fr i { s.fr i with k := k, child := some s.n }) s.n g) (i :: t) .stopped r =
        up s.fr t .stopped r := by
      intro g r; simp only [up, hu]
    simp only [sem]
    cases r with
    | nil => rfl
    | cons e r =>
      cases e with
      | res o => rfl
      | reg e =>
        cases e with
        | some e =>
          simp only [den]
          exact (hu2 _ _ _ (by simp)).symm
        | none =>
          simp only [den, upd_same]
          have hb2 : (fr0 c b (if c.own then some s.n else (s.fr i).tok) (some i) (c.sch.getD (s.fr i).sch)).body = b := rfl
          rw [hb2]
          cases hd : den b r with
          | none => rfl
          | some x =>
            obtain ⟨o, r'⟩ := x
            cases o with
            | stopped => simp only [Option.bind_some]; exact (hu3 _ _).symm
            | value v => simp only [Option.bind_some]; exact (hu2 _ _ _ (by simp)).symm
            | error e => simp only [Option.bind_some]; exact (hu2 _ _ _ (by simp)).symm
  · intro stk hs j hj
    have h2 := h.stk stk hs j hj
    have hne : j ≠ s.n := by
      intro he; subst he
      have := (h.fresh s.n (by omega)).2.2.2.1; rw [h2.1] at this; cases this
    simp only [newTask]
    have h1 := hall (fr0 c b (if c.own then some s.n else (s.fr i).tok) (some i) (c.sch.getD (s.fr i).sch)) j hne
    rw [h1.1, h1.2.2.1]; exact h2
  · exact h.same
  · intro j hj hcj hr
    rcases hmem j hj with he | ⟨hne, hj⟩
    · subst he; simp [newTask, fr0] at hcj
    · rw [hout j hj, hrq j hj]
      simp only [newTask] at hcj hr
      have h1 := hall (fr0 c b (if c.own then some s.n else (s.fr i).tok) (some i) (c.sch.getD (s.fr i).sch)) j hne
      rw [h1.1] at hcj; rw [h1.2.2.1] at hr
      exact h.req1 j hj hcj hr
  · intro j hj hcj hr h3
    rcases hmem j hj with he | ⟨hne, hj⟩
    · subst he; simp [newTask, fr0] at hcj
    · rw [hout j hj, hrq j hj] at h3
      rw [hout j hj]
      simp only [newTask] at hcj hr
      have h1 := hall (fr0 c b (if c.own then some s.n else (s.fr i).tok) (some i) (c.sch.getD (s.fr i).sch)) j hne
      rw [h1.1] at hcj; rw [h1.2.2.1] at hr
      exact h.req2 j hj hcj hr h3

end Verif.Task
