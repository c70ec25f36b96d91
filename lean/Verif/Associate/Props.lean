import Verif.Associate.Step
import Verif.Run
/-!
# C57: `associate` and `spawn` keep the scope open exactly as long as their work exists
-/
namespace Verif.Associate
set_option maxHeartbeats 4000000

theorem reach {N : Nat} {s : St} (h : Reach init (step N) s) : Inv N s :=
  Reach.inv (Inv N) (inv_init N) (fun _ _ _ hi he => inv_step hi he) s h

/-! ## Specification -/

/-- A sender that got an association, an operation made from one, or spawned work that has not completed. -/
def associated : Cell → Bool
  | .data a _ => a
  | .op c => c.a
  | .spawn _ => true
  | .absent => false

/-- It contains the wrapped sender or operation `o`. -/
def contains (o : Nat) : Cell → Bool
  | .data a p => a && decide (p = o)
  | .op c => c.a && decide (c.o = o)
  | .spawn p => decide (p = o)
  | .absent => false

theorem assocW_eq (c : Cell) : assocW c = if associated c then 1 else 0 := by
  cases c with
  | data a o => cases a <;> rfl
  | op c => rfl
  | _ => rfl

theorem ownW_eq (o : Nat) (c : Cell) : ownW o c = if contains o c then 1 else 0 := by
  cases c with
  | data a p => cases a <;> simp [ownW, contains, eq1]
  | op c => cases h : c.a <;> simp [ownW, contains, eq1, h]
  | spawn p => simp [ownW, contains, eq1]
  | absent => rfl

theorem S_filter (N : Nat) (f : Nat → Cell) :
    S N assocW f = ((List.range N).filter (fun i => associated (f i))).length := by
  unfold S
  generalize List.range N = l
  induction l with
  | nil => rfl
  | cons a l ih =>
    simp only [lsum, ih, assocW_eq, List.filter_cons]
    split
    · simp only [List.length_cons]; omega
    · omega

/-! ## Theorems -/

/-- The scope has exactly one association per associated thing that exists, also after exceptions. -/
theorem C57_one_association_each {N : Nat} {s : St} (h : Reach init (step N) s) :
    s.count = ((List.range N).filter (fun i => associated (s.cell i))).length := by
  rw [← S_filter]; exact (reach h).cnt

/-- Nothing is destroyed or released twice or without existing; an existing wrapped sender or operation belongs to exactly
    one variable. -/
theorem C57_destroyed_once {N : Nat} {s : St} (h : Reach init (step N) s) :
    s.bad = false ∧ (∀ o, s.dead o ≤ 1) ∧
    (∀ o, o < s.nobj → (s.dead o = 0 ↔ ∃ i, i < N ∧ contains o (s.cell i) = true)) := by
  have hi := reach h
  refine ⟨hi.bad, fun o => ?_, fun o ho => ⟨fun hd => ?_, fun ⟨i, h1, h2⟩ => ?_⟩⟩
  · have := hi.own o
    rcases lt1_cases o s.nobj with h1 | h1 <;> omega
  · have := hi.own o
    rcases lt1_cases o s.nobj with h1 | h1
    · obtain ⟨i, h2, h3⟩ := lsum_pos (ownW o) s.cell (l := List.range N) (by unfold S at this; omega)
      refine ⟨i, List.mem_range.mp h2, ?_⟩
      rw [ownW_eq] at h3
      cases hc : contains o (s.cell i) with
      | true => rfl
      | false => rw [hc] at h3; simp at h3
    · omega
  · exact ((cell_facts hi h1).2.2.2 o (by rw [ownW_eq, h2]; rfl)).2

/-- Once all senders and operations are gone and all spawned work has completed, nothing is left behind: no association, no
    memory, every wrapped sender and operation destroyed. -/
theorem C57_nothing_left {N : Nat} {s : St} (h : Reach init (step N) s) (ha : ∀ i, i < N → s.cell i = .absent) :
    s.count = 0 ∧ s.blks = 0 ∧ ∀ o, o < s.nobj → s.dead o = 1 := by
  have hi := reach h
  have key : ∀ w : Cell → Nat, w .absent = 0 → S N w s.cell = 0 := fun w hw =>
    lsum_eq_zero _ _ (fun i hi => by rw [ha i (List.mem_range.mp hi)]; exact hw)
  refine ⟨by rw [hi.cnt]; exact key _ rfl, by rw [hi.blk]; exact key _ rfl, fun o ho => ?_⟩
  have := hi.own o
  rw [key _ rfl] at this
  rcases lt1_cases o s.nobj with h1 | h1 <;> omega

/-- If the scope has no association (so that `join` may complete), every wrapped sender and operation is destroyed. -/
theorem C57_joined_means_destroyed {N : Nat} {s : St} (h : Reach init (step N) s) (hc : s.count = 0) :
    ∀ o, o < s.nobj → s.dead o = 1 := by
  intro o ho
  have hi := reach h
  have h0 := C57_destroyed_once h
  rcases Nat.eq_zero_or_pos (s.dead o) with hd | hd
  · exfalso
    obtain ⟨i, h1, h2⟩ := (h0.2.2 o ho).mp hd
    have h3 := (cell_facts hi h1).1
    have h4 : associated (s.cell i) = true := by
      revert h2
      cases s.cell i with
      | data a p => simp only [contains, associated, Bool.and_eq_true]; exact fun h => h.1
      | op c => simp only [contains, associated, Bool.and_eq_true]; exact fun h => h.1
      | spawn p => simp [associated]
      | absent => simp [contains]
    rw [assocW_eq, h4] at h3
    simp at h3
    omega
  · have := h0.2.1 o; omega

/-- After `close` no call obtains an association. -/
theorem C57_closed_no_new {N : Nat} {s s' : St} {a : Act} (hc : s.closed = true) (hs : step N s a = some s') :
    s'.closed = true ∧ s'.count ≤ s.count := by
  have hg : ∀ e, grants s e = false := fun e => by simp [grants, hc]
  cases a <;> simp only [step] at hs <;> (repeat' (split at hs)) <;> first | (cases hs; done) | skip
  all_goals cases hs
  all_goals
    try simp only [make, copyD, moveD, conn, connC, delD, delO, spawn, spawnDone, hg, Bool.and_false, Bool.false_eq_true, if_false]
  all_goals (repeat' split)
  all_goals
    simp [put, kill, release, build, free, alloc, cover, grant, hc]

/-- An operation completes its receiver at most once: without an association by `start` itself, as stopped and without
    starting the work; with one, it starts the work once and completes when the work does. -/
theorem C57_operation {N : Nat} {s : St} (h : Reach init (step N) s) {i : Nat} {c : OpC} (hc : s.cell i = .op c) :
    c.dn ≤ 1 ∧
    (c.st = false → c.kids = 0 ∧ c.dn = 0) ∧
    (c.st = true → c.a = false → c.kids = 0 ∧ c.dn = 1 ∧ c.sp = true) ∧
    (c.st = true → c.a = true → c.kids = 1 ∧ c.sp = false ∧ (c.dn = 1 ↔ c.kd = true)) := by
  obtain ⟨h1, h2, h3⟩ := (reach h).ops i c hc
  refine ⟨?_, fun e => ⟨(h1 e).1, (h1 e).2.2.1⟩, fun e f => ⟨(h2 e f).1, (h2 e f).2.2⟩, fun e f => ⟨(h3 e f).1, (h3 e f).2.1, ?_⟩⟩
  · cases hs : c.st with
    | false => have := (h1 hs).2.2.1; omega
    | true =>
      cases ha : c.a with
      | false => have := (h2 hs ha).2.2.1; omega
      | true => have := (h3 hs ha).2.2; split at this <;> omega
  · have := (h3 e f).2.2
    cases hk : c.kd <;> simp [hk] at this <;> simp [this]

/-! ## No moment at which the scope could be joined too early -/

/-- Neither moving a wrapped sender nor connecting it throws. -/
def quiet : Act → Bool
  | .move _ _ e => !e.second
  | .conn _ _ e => !e.second
  | .connC _ _ e => !e.second
  | _ => true

def stepQ (N : Nat) (s : St) (a : Act) : Option St := if quiet a then step N s a else none

theorem gap_step {N : Nat} {s s' : St} {a : Act} (h : Inv N s) (hg : s.gap = false) (hs : stepQ N s a = some s') :
    s'.gap = false := by
  have e1 := h.cnt
  have e2 := h.cov
  have e3 : s.count = s.ncov := by omega
  unfold stepQ at hs
  split at hs
  case isFalse => cases hs
  rename_i hq
  cases a <;> simp only [quiet, Bool.not_eq_true'] at hq <;> simp only [step] at hs <;> (repeat' (split at hs)) <;>
    first | (cases hs; done) | skip
  all_goals cases hs
  all_goals try simp only [make, copyD, moveD, conn, connC, delD, delO, spawn, spawnDone]
  all_goals (repeat' split)
  all_goals
    first
    | exact hg
    | (simp_all; done)
    | (simp only [put, kill, release, build, free, alloc, cover, grant, hg, Bool.false_or, decide_eq_false_iff_not, if_true]
       omega)

theorem inv_stepQ {N : Nat} {s s' : St} {a : Act} (h : Inv N s) (hs : stepQ N s a = some s') : Inv N s' := by
  unfold stepQ at hs
  split at hs
  · exact inv_step h hs
  · cases hs

/-- If neither moving a wrapped sender nor connecting it throws, then also during the calls there are never fewer
    associations than wrapped senders and operations: the scope cannot be joined while one of them exists. -/
theorem C57_never_early_partial {N : Nat} {s : St} (h : Reach init (stepQ N) s) : s.gap = false := by
  have : Inv N s ∧ s.gap = false :=
    Reach.inv (fun s => Inv N s ∧ s.gap = false) ⟨inv_init N, rfl⟩
      (fun s a s' hi he => ⟨inv_stepQ hi.1 he, gap_step hi.1 hi.2 he⟩) s h
  exact this.2

/-- Nothing throws. -/
def ok : Orc := ⟨false, false, false, false⟩

/-- The code: if moving the wrapped sender throws, the association is released before the sender is destroyed. -/
theorem C57_move_early : ∃ s, Reach init (step 2) s ∧ s.gap = true := by
  obtain ⟨s, h1, h2⟩ := Reach.witness (init := init) (step := step 2)
    [.make 0 ok, .move 1 0 { ok with second := true }] (fun s : St => s.gap) (by rfl)
  exact ⟨s, h1, h2⟩

/-- … and if connecting it throws. -/
theorem C57_connect_early : ∃ s, Reach init (step 2) s ∧ s.gap = true := by
  obtain ⟨s, h1, h2⟩ := Reach.witness (init := init) (step := step 2)
    [.make 0 ok, .conn 1 0 { ok with second := true }] (fun s : St => s.gap) (by rfl)
  exact ⟨s, h1, h2⟩

/-! ## The hypotheses are met -/

/-- Two associated senders, one copied; one operation running, spawned work pending, one operation refused. -/
example : ∃ s, Reach init (stepQ 6) s ∧
    (decide (s.count = 3) && decide (s.blks = 1) && s.closed && decide (s.nobj = 4) && !s.gap) = true :=
  Reach.witness [.make 0 ok, .copy 1 0 ok, .conn 2 0 ok, .start 2, .spawn 3 ok, .close, .connC 4 1 ok, .start 4] _ (by rfl)

/-- All of it finished. -/
example : ∃ s, Reach init (step 6) s ∧
    (decide (s.count = 0) && decide (s.blks = 0) && decide (s.nobj = 4) && decide (s.cell 2 = .absent)) = true :=
  Reach.witness [.make 0 ok, .copy 1 0 ok, .conn 2 0 ok, .start 2, .spawn 3 ok, .close, .connC 4 1 ok, .start 4,
    .child 2, .del 2, .spawned 3, .del 1, .del 0, .del 4] _ (by rfl)

/-- An operation with and one without association. -/
example : ∃ s, Reach init (step 4) s ∧
    (decide (s.cell 1 = .op ⟨true, 1, true, 1, true, 1, false⟩) && decide (s.cell 3 = .op ⟨false, 0, true, 0, false, 1, true⟩)) = true :=
  Reach.witness [.make 0 ok, .conn 1 0 ok, .start 1, .child 1, .close, .make 2 ok, .conn 3 2 ok, .start 3] _ (by rfl)

end Verif.Associate
