import Verif.Scope.Inv
/-!
# Counting scopes: properties C13, C14, C15
-/
namespace Verif.Scope

section
variable (max : Nat) (s : St) (a : Nat)
@[simp, grind =] theorem touch_bits : (touch s).bits = s.bits := rfl
@[simp, grind =] theorem touch_ap : (touch s).ap = s.ap := rfl
@[simp, grind =] theorem touch_jp : (touch s).jp = s.jp := rfl
@[simp, grind =] theorem touch_agents : (touch s).agents = s.agents := rfl
@[simp, grind =] theorem touch_grants : (touch s).grants = s.grants := rfl
@[simp, grind =] theorem touch_compl : (touch s).compl = s.compl := rfl
@[simp, grind =] theorem touch_reg : (touch s).reg = s.reg := rfl
@[simp, grind =] theorem tryLoad_bits : (tryLoad max s a).bits = s.bits := by unfold tryLoad; split <;> rfl
@[simp, grind =] theorem tryLoad_grants : (tryLoad max s a).grants = s.grants := by unfold tryLoad; split <;> rfl
@[simp, grind =] theorem tryLoad_agents : (tryLoad max s a).agents = s.agents := by unfold tryLoad; split <;> rfl
@[simp, grind =] theorem tryLoad_compl : (tryLoad max s a).compl = s.compl := by unfold tryLoad; split <;> rfl
@[simp, grind =] theorem tryLoad_ap : (tryLoad max s a).ap =
    upd s.ap a (if s.bits.refuses max then .refused else .tryLoop s.bits) := by unfold tryLoad; split <;> rfl
@[simp, grind =] theorem regLoad_bits : (regLoad s a).bits = s.bits := by unfold regLoad; split <;> rfl
@[simp, grind =] theorem regLoad_grants : (regLoad s a).grants = s.grants := by unfold regLoad; split <;> rfl
@[simp, grind =] theorem regLoad_agents : (regLoad s a).agents = s.agents := by unfold regLoad; split <;> rfl
@[simp, grind =] theorem regLoad_compl : (regLoad s a).compl = s.compl := by unfold regLoad; split <;> rfl
@[simp, grind =] theorem regLoad_ap : (regLoad s a).ap = s.ap := by unfold regLoad; split <;> rfl
@[grind =] theorem tryLoad_ap' (x : Nat) : (tryLoad max s a).ap x =
    if x = a then (if s.bits.refuses max then .refused else .tryLoop s.bits) else s.ap x := by
  rw [tryLoad_ap]; rfl
@[grind =] theorem touch_ap' (x : Nat) : (touch s).ap x = s.ap x := rfl
@[simp, grind =] theorem complete_bits : (complete s a).bits = s.bits := rfl
@[simp, grind =] theorem complete_grants : (complete s a).grants = s.grants := rfl
@[simp, grind =] theorem complete_agents : (complete s a).agents = s.agents := rfl
@[simp, grind =] theorem complete_ap : (complete s a).ap = s.ap := rfl
end

/-- The number of agents that hold an association: granted and not yet given up. -/
def outstanding (s : St) : Nat := (s.agents.filter fun a => holds (s.ap a)).length

/-- The agent's association was given up (its disassociation took effect). -/
def released : APc → Bool
  | .deq | .completing | .gone => true
  | _ => false

def releases (s : St) : Nat := (s.agents.filter fun a => released (s.ap a)).length

theorem lsum_filter {α : Type} (c : APc → Nat) (p : α → Bool) (f : α → APc)
    (h : ∀ a, c (f a) = if p a then 1 else 0) (l : List α) : lsum c f l = (l.filter p).length := by
  induction l with
  | nil => rfl
  | cons a l ih =>
    simp only [lsum, List.filter]
    rw [ih, h a]
    split <;> simp_all <;> omega

theorem count_outstanding {max : Nat} {s : St} (h : Reachable max s) : s.bits.count = outstanding s := by
  rw [(inv_reach h).cnt, outstanding]
  apply lsum_filter
  intro a; cases s.ap a <;> simp [hw, holds]

@[grind] def rw' : APc → Nat
  | .deq | .completing | .gone => 1
  | _ => 0

theorem releases_eq (s : St) : releases s = lsum rw' s.ap s.agents := by
  rw [releases]; symm
  apply lsum_filter
  intro a; cases s.ap a <;> simp [rw', released]

theorem grants_eq {max : Nat} : ∀ s, Reachable max s → s.grants = s.bits.count + lsum rw' s.ap s.agents := by
  apply Reach.inv'
  · simp [init, lsum]
  · intro s a s' hr ih hs
    have hi := inv_reach hr
    have sumR : ∀ {a : Nat} (_ : s.ap a ≠ .idle) (p : APc),
        lsum rw' (upd s.ap a p) s.agents + rw' (s.ap a) = lsum rw' s.ap s.agents + rw' p :=
      fun {a} ha p => lsum_upd_in rw' s.ap hi.andp ((hi.amem a).2 ha)
    cases a with
    | tryAssoc a =>
      simp only [step] at hs
      split at hs <;> cases hs
      rename_i hc
      have hna : a ∉ s.agents := by rw [hi.amem]; simp [hc.1]
      simp only [tryLoad]
      split <;> (simp only; rw [lsum_append, lsum_upd_notin rw' s.ap hna]; simp [lsum, rw', ih])
    | disassoc a =>
      simp only [step] at hs
      split at hs <;> cases hs
      rename_i hc
      have := sumR (a := a) (by simp [hc]) (.disLoop s.bits)
      simp [hc, rw'] at this ⊢; omega
    | close => simp only [step] at hs; split at hs <;> cases hs; exact ih
    | join j => simp only [step] at hs; split at hs <;> cases hs; exact ih
    | stepJ j sp =>
      simp only [step] at hs
      (repeat' split at hs) <;> cases hs <;> simp_all
    | destroy all => simp only [step] at hs; split at hs <;> cases hs; exact ih
    | stepA a sp =>
      simp only [step] at hs
      cases hp : s.ap a with
      | tryLoop old =>
        simp only [hp] at hs
        have hS := sumR (a := a) (by simp [hp])
        (repeat' split at hs) <;> cases hs
        · rename_i hc
          have := hS .granted
          obtain ⟨rfl, _⟩ := hc; simp [hp, rw', Bits.assoc] at this ⊢; omega
        · have h1 := hS .refused
          have h2 := hS (.tryLoop s.bits)
          simp [hp, rw'] at h1 h2 ⊢; by_cases hr : s.bits.refuses max = true <;> simp [hr] <;> omega
      | disLoop old =>
        simp only [hp] at hs
        have hS := sumR (a := a) (by simp [hp])
        have hpos := hi.pos (a := a) (by simp [hp, hw])
        have hd : old.dis.count = old.count - 1 := by simp only [Bits.dis]; split <;> simp_all
        (repeat' split at hs) <;> cases hs
        · rename_i hc _
          have := hS .deq
          obtain ⟨rfl, _⟩ := hc; simp [hp, rw'] at this hd ⊢; omega
        · rename_i hc _
          have := hS .gone
          obtain ⟨rfl, _⟩ := hc; simp [hp, rw'] at this hd ⊢; omega
        · have := hS (.disLoop s.bits)
          simp [hp, rw'] at this ⊢; omega
      | deq =>
        simp only [hp] at hs
        cases hs
        have := sumR (a := a) (by simp [hp]) .completing
        simp [hp, rw'] at this ⊢; omega
      | completing =>
        simp only [hp] at hs
        split at hs <;> cases hs
        · have := sumR (a := a) (by simp [hp]) .gone
          simp [hp, rw'] at this ⊢; omega
        · simpa [complete] using ih
      | idle => simp [hp] at hs
      | refused => simp [hp] at hs
      | granted => simp [hp] at hs
      | gone => simp [hp] at hs

/-- C13: the number of outstanding associations is the number of grants minus the number of disassociations, never
exceeds the maximum, and the scope's counter is that number. -/
theorem C13_count {max : Nat} {s : St} (h : Reachable max s) :
    s.bits.count = outstanding s ∧ outstanding s + releases s = s.grants ∧ outstanding s ≤ max := by
  have h1 := count_outstanding h
  refine ⟨h1, ?_, h1 ▸ (inv_reach h).le⟩
  rw [grants_eq s h, releases_eq, ← h1]

/-- C13: a step that grants an association to `a` happens only when the scope is neither closed (which includes
joined) nor full, and then counts it. -/
theorem C13_granted_only_if {max : Nat} {s s' : St} {act : Act} {a : Nat} (h : Reachable max s)
    (hs : step max s act = some s') (h0 : s.ap a ≠ .granted) (h1 : s'.ap a = .granted) :
    s.bits.closed = false ∧ outstanding s < max ∧ outstanding s' = outstanding s + 1 ∧ s'.grants = s.grants + 1 := by
  have hi := inv_reach h
  rw [← count_outstanding h, ← count_outstanding (.tail act h hs)]
  cases act with
  | stepA b sp =>
    simp only [step] at hs
    cases hp : s.ap b <;> simp only [hp] at hs
    case tryLoop old =>
      have ht := hi.tryOk b old hp
      have hle := hi.le
      (repeat' split at hs) <;> cases hs
      · rename_i hc
        by_cases hab : a = b
        · subst hab
          simp only [Bits.refuses, Bool.or_eq_false_iff, beq_eq_false_iff_ne] at ht
          obtain ⟨hc, _⟩ := hc
          subst hc
          simp only [touch_bits] at ht; exact ⟨ht.1, by omega, rfl, rfl⟩
        · simp [upd_other _ _ hab] at h1; exact absurd h1 (by grind)
      all_goals exact absurd h1 (by grind)
    all_goals (repeat' split at hs) <;> cases hs <;> exact absurd h1 (by grind)
  | stepJ j sp =>
    simp only [step] at hs
    (repeat' split at hs) <;> cases hs <;> exact absurd h1 (by grind)
  | _ =>
    simp only [step] at hs
    (repeat' split at hs) <;> cases hs <;> exact absurd h1 (by grind)

/-- C13: a step that refuses `a` happens only when the scope is closed or full. -/
theorem C13_refused_only_if {max : Nat} {s s' : St} {act : Act} {a : Nat} (h : Reachable max s)
    (hs : step max s act = some s') (h0 : s.ap a ≠ .refused) (h1 : s'.ap a = .refused) :
    s.bits.closed = true ∨ outstanding s = max := by
  rw [← count_outstanding h]
  cases act with
  | stepA b sp =>
    simp only [step] at hs
    cases hp : s.ap b <;> simp only [hp] at hs
    case tryLoop old =>
      (repeat' split at hs) <;> cases hs
      · exact absurd h1 (by grind)
      · have hr : s.bits.refuses max = true := by grind
        simpa [Bits.refuses] using hr
    all_goals (repeat' split at hs) <;> cases hs <;> exact absurd h1 (by grind)
  | tryAssoc b =>
    simp only [step] at hs
    (repeat' split at hs) <;> cases hs
    · have hr : s.bits.refuses max = true := by grind
      simpa [Bits.refuses] using hr
  | stepJ j sp =>
    simp only [step] at hs
    (repeat' split at hs) <;> cases hs <;> exact absurd h1 (by grind)
  | _ =>
    simp only [step] at hs
    (repeat' split at hs) <;> cases hs <;> exact absurd h1 (by grind)

/-- C13: `try_associate` is decided by the moment of its last access: run alone from a scope that is open and not
full it is granted, otherwise refused. -/
theorem C13_decides {max : Nat} {s s' : St} {a : Nat} (h : Reachable max s)
    (hs : step max s (.tryAssoc a) = some s') :
    (if s.bits.closed = false ∧ outstanding s < max
     then ∃ s'', step max s' (.stepA a false) = some s'' ∧ s''.ap a = .granted
     else s'.ap a = .refused) := by
  have hi := inv_reach h
  have hle := hi.le
  rw [← count_outstanding h]
  simp only [step] at hs
  split at hs <;> cases hs
  simp only [tryLoad]
  by_cases hr : s.bits.refuses max = true
  · simp only [hr, if_true]
    rw [if_neg]
    · simp
    · simp only [Bits.refuses, Bool.or_eq_true, beq_iff_eq] at hr
      rintro ⟨h1, h2⟩
      simp [h1] at hr; omega
  · simp only [hr]
    simp only [Bits.refuses, Bool.or_eq_true, beq_iff_eq, not_or, Bool.not_eq_true] at hr
    rw [if_pos ⟨hr.1, by omega⟩]
    simp [step, touch]

theorem closed_step {max : Nat} {s s' : St} {act : Act} (h : Reachable max s) (hs : step max s act = some s')
    (hc : s.bits.closed = true) : s'.bits.closed = true ∧ s'.grants = s.grants := by
  have hi := inv_reach h
  cases act with
  | stepA b sp =>
    simp only [step] at hs
    cases hp : s.ap b <;> simp only [hp] at hs
    case tryLoop old =>
      have ht := hi.tryOk b old hp
      (repeat' split at hs) <;> cases hs
      · rename_i hb; simp [Bits.refuses, ← hb.1, hc] at ht
      all_goals simp_all
    case disLoop old =>
      have hd : old.closed = true → old.dis.closed = true := by
        simp only [Bits.dis]; split <;> simp
      (repeat' split at hs) <;> cases hs
      · rename_i hb _; exact ⟨hd (hb.1 ▸ hc), rfl⟩
      · rename_i hb _; exact ⟨hd (hb.1 ▸ hc), rfl⟩
      · exact ⟨hc, rfl⟩
    all_goals (repeat' split at hs) <;> cases hs <;> simp_all
  | stepJ j sp =>
    simp only [step] at hs
    (repeat' split at hs) <;> cases hs <;> simp_all
  | _ =>
    simp only [step] at hs
    (repeat' split at hs) <;> cases hs <;> simp_all

/-- Once closed, closed for ever, and no association is granted in any continuation. -/
theorem closed_forever {max : Nat} {s s' : St} (h : Reachable max s) (hc : s.bits.closed = true)
    (hr : Reach s (step max) s') : s'.bits.closed = true ∧ s'.grants = s.grants := by
  have : Reachable max s' ∧ s'.bits.closed = true ∧ s'.grants = s.grants := by
    induction hr with
    | refl => exact ⟨h, hc, rfl⟩
    | tail a _ hs ih =>
      have := closed_step ih.1 hs ih.2.1
      exact ⟨.tail a ih.1 hs, this.1, this.2.trans ih.2.2⟩
  exact this.2

/-- C13: after `close()` no association is ever granted again. -/
theorem C13_closed {max : Nat} {s s' : St} (h : Reachable max s) (hc : s.closeCalled = true)
    (hr : Reach s (step max) s') : s'.grants = s.grants :=
  (closed_forever h ((inv_reach h).close hc) hr).2

/-- C14: no join operation completes twice, and none completes while an association is outstanding. -/
theorem C14_once {max : Nat} {s : St} (h : Reachable max s) (j : Nat) :
    s.compl j ≤ 1 ∧ (s.compl j = 1 → j ∈ s.joins ∧ outstanding s = 0) := by
  have hi := inv_reach h
  have hc := hi.compl j
  refine ⟨by rw [hc]; split <;> simp, fun h1 => ?_⟩
  have hj : s.jp j = .completed := by by_contra hne; simp [hne] at hc; omega
  refine ⟨(hi.jmem j).2 (by simp [hj]), ?_⟩
  rw [← count_outstanding h, hi.fin j (by simp [hj, JPc.fin])]

/-- C14: the step that completes a join operation happens while no association is outstanding. -/
theorem C14_empty_at_completion {max : Nat} {s s' : St} {act : Act} {j : Nat} (h : Reachable max s)
    (hs : step max s act = some s') (h0 : s.compl j = 0) (h1 : s'.compl j ≠ 0) :
    outstanding s = 0 ∧ outstanding s' = 0 := by
  have h' := Reach.tail act h hs
  have hj := C14_once h' j
  have h1' := (hj.2 (by omega)).2
  refine ⟨?_, h1'⟩
  by_contra hne
  have hi := inv_reach h
  rw [← count_outstanding h] at hne
  have hpos : ∀ j, (s.jp j).fin = false := by
    intro j; cases hf : (s.jp j).fin
    · rfl
    · have := hi.fin j hf; simp [this] at hne
  have hdq : s.dq = none := by
    by_contra hd; have := hi.dqJ hd; simp [this] at hne
  cases act with
  | stepA b sp =>
    simp only [step] at hs
    cases hp : s.ap b <;> simp only [hp] at hs
    case completing => have := hi.dqA b (.inr hp); simp [hdq] at this
    all_goals (repeat' split at hs) <;> cases hs <;> exact absurd h1 (by grind)
  | stepJ b sp =>
    simp only [step] at hs
    cases hp : s.jp b <;> simp only [hp] at hs
    case inl => have := hpos b; simp [hp, JPc.fin] at this
    all_goals (repeat' split at hs) <;> cases hs <;> exact absurd h1 (by grind)
  | _ =>
    simp only [step] at hs
    (repeat' split at hs) <;> cases hs <;> exact absurd h1 (by grind)

/-- C14: after a join operation has completed no association is ever granted again. -/
theorem C14_no_grant_after {max : Nat} {s s' : St} {j : Nat} (h : Reachable max s) (hj : s.compl j = 1)
    (hr : Reach s (step max) s') : s'.grants = s.grants := by
  have hi := inv_reach h
  have hc := hi.compl j
  have hj : s.jp j = .completed := by by_contra hne; simp [hne] at hc; omega
  exact (closed_forever h (by rw [hi.fin j (by simp [hj, JPc.fin])]) hr).2

/-- Every thread inside a scope operation has finished it (no `stepA`/`stepJ` is enabled). -/
def Quiescent (max : Nat) (s : St) : Prop :=
  ∀ a sp, step max s (.stepA a sp) = none ∧ step max s (.stepJ a sp) = none

/-- C14: every started join operation does complete: when all threads have finished their scope operations and all
associations have been given up, every join operation has completed exactly once. -/
theorem C14_completes {max : Nat} {s : St} (h : Reachable max s) (hq : Quiescent max s) (h0 : outstanding s = 0)
    {j : Nat} (hj : j ∈ s.joins) : s.compl j = 1 := by
  have hi := inv_reach h
  rw [← count_outstanding h] at h0
  have hA : ∀ a, s.ap a ≠ .deq ∧ s.ap a ≠ .completing := by
    intro a
    have := (hq a true).1
    constructor <;> intro hp <;> simp only [step, hp] at this
    · simp at this
    · split at this <;> simp at this
  have hJ := (hq j true).2
  have hne := (hi.jmem j).1 hj
  rw [hi.compl j]
  cases hp : s.jp j <;> simp only [step, hp] at hJ <;> simp_all
  · -- waiting
    have hpend := hi.pendR j (by simp [hp, JPc.pend])
    have hw := (hi.wait j).2 hp
    rcases hpend with hr | hd
    · exact hi.run hr h0
    · obtain ⟨a, ha⟩ := Option.ne_none_iff_exists'.1 hd
      by_cases hreg : s.reg = none
      · have : s.todo ≠ [] := by intro h; simp [hreg, h] at hw
        obtain ⟨b, hb⟩ := hi.todoN this
        exact (hA b).2 hb
      · exact (hA a).1 (hi.dqD hreg a ha)

/-- C15: the destructor, run after a join operation completed (or on a scope never used), never terminates. -/
theorem C15_no_terminate {max : Nat} {s : St} (h : Reachable max s) : s.terminated = false := (inv_reach h).term

/-- C15 (the part that holds): if the scope is destroyed after all started join operations have completed, nothing
touches it afterwards. Missing: destruction after some, but not all, of several concurrent join operations have
completed, where the claim is false (`C15_false`). -/
theorem C15_safe_partial {max : Nat} {s : St} (h : Reachable max s) (hd : s.dead = some true) : s.uaf = false :=
  (inv_reach h).uaf (.inl hd)

/-- With a single join operation, "some join has completed" is "all have". -/
theorem C15_single_join {max : Nat} {s s' : St} {all : Bool} {j : Nat} (h : Reachable max s)
    (hj : s.joins = [j]) (hs : step max s (.destroy all) = some s') : ∃ s'', step max s (.destroy true) = some s'' := by
  simp only [step] at hs ⊢
  split at hs <;> cases hs
  rename_i hc
  refine ⟨_, if_pos ⟨hc.1, hc.2.1, hc.2.2.1, ?_⟩⟩
  have h1 := hc.2.1
  simp only [hj, List.any_cons, List.any_nil, List.all_cons, List.all_nil, Bool.or_false, Bool.and_true] at h1 ⊢
  rcases h1 with h1 | h1
  · simp [h1]
  · simp at h1

/-- Associate; start join 0 (registers); the last disassociation makes the scope joined; join 1 completes inline;
its continuation destroys the scope; the disassociating thread then exchanges the list of registered joins. -/
def badRun : List Act :=
  [.tryAssoc 0, .stepA 0 false, .join 0, .stepJ 0 false, .stepJ 0 false, .stepJ 0 false, .disassoc 0,
   .stepA 0 false, .join 1, .stepJ 1 false, .stepJ 1 false, .destroy false, .stepA 0 false]

/-- C15 is false in the code with two join operations: the scope is touched after the destructor although a join
operation had completed before. -/
theorem C15_false : ∃ s, Reachable 5 s ∧ (decide (s.uaf = true ∧ s.compl 1 = 1)) = true :=
  Reach.witness badRun (fun s : St => decide (s.uaf = true ∧ s.compl 1 = 1)) (by decide)

-- Non-vacuity.
/-- Two associations, two joins, all completed, destroyed. -/
def goodRun : List Act :=
  [.tryAssoc 0, .tryAssoc 1, .stepA 0 false, .stepA 1 false, .stepA 1 false, .join 0, .stepJ 0 false,
   .stepJ 0 false, .stepJ 0 false, .tryAssoc 2, .disassoc 0, .stepA 0 false, .join 1, .stepJ 1 false, .stepJ 1 false,
   .disassoc 1, .stepA 1 false, .stepA 1 false, .stepJ 1 false, .stepJ 1 false, .stepA 1 false, .stepA 1 false,
   .stepA 2 false, .destroy true]

example : ∃ s, Reachable 5 s ∧ (decide (s.dead = some true ∧ s.compl 0 = 1 ∧ s.compl 1 = 1 ∧ s.grants = 2 ∧
    releases s = 2 ∧ s.ap 2 = .refused)) = true :=
  Reach.witness goodRun (fun s : St => decide (s.dead = some true ∧ s.compl 0 = 1 ∧ s.compl 1 = 1 ∧
    s.grants = 2 ∧ releases s = 2 ∧ s.ap 2 = .refused)) (by decide)
/-- The maximum is met and refuses. -/
example : ∃ s, Reachable 1 s ∧ (decide (outstanding s = 1 ∧ s.ap 1 = .refused ∧ s.bits.closed = false)) = true :=
  Reach.witness [.tryAssoc 0, .tryAssoc 1, .stepA 0 false, .stepA 1 false]
    (fun s : St => decide (outstanding s = 1 ∧ s.ap 1 = .refused ∧ s.bits.closed = false)) (by decide)
/-- `close()` while an association is outstanding. -/
example : ∃ s, Reachable 3 s ∧ (decide (s.closeCalled = true ∧ outstanding s = 1)) = true :=
  Reach.witness [.tryAssoc 0, .stepA 0 false, .close]
    (fun s : St => decide (s.closeCalled = true ∧ outstanding s = 1)) (by decide)

end Verif.Scope
