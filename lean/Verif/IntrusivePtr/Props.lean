import Verif.IntrusivePtr.StepCall
import Verif.Run
/-!
# C50: reference-counted objects are destroyed exactly once, when their last owner lets go

Specification vocabulary: a *variable* `v` owns `o` when `s.ptr v = some o`; manual references to `o` are counted by
`s.raw o`; `s.dtors o` counts how often the destructor of `o` was entered and `s.freed o` how often its storage was
released; a thread is idle when its stack of calls is empty.
-/
namespace Verif.IntrusivePtr

/-- The last value written to reserved bit `b`. -/
def lastWrite (b : Nat) : List (Nat × Bool) → Bool
  | [] => false
  | (b', x) :: l => if b' = b then x else lastWrite b l

/-- **C50, safety.** In every execution, an object to which some pointer variable or manual reference refers exists and
    has not been destroyed. -/
theorem C50_owned_is_alive {c : Cfg} {s : St} (h : Reachable c s) {o : Nat}
    (hown : (∃ v, s.ptr v = some o) ∨ 0 < s.raw o) : s.made o = true ∧ s.dtors o = 0 ∧ s.freed o = 0 := by
  have hi := inv_reach h
  have hpos : 0 < count c (s.word o) := by
    rcases hown with ⟨v, hv⟩ | hr
    · have hl : s.live v = true := by
        cases hl : s.live v with
        | true => rfl
        | false => rw [hi.nl v hl] at hv; cases hv
      exact hold_le hi hl hv
    · have := hi.cnt o; omega
  obtain ⟨_, h1, _, h2⟩ := hi.live_of_count hpos
  have := hi.fd o
  exact ⟨h2, h1, by omega⟩

/-- **C50, at most once.** No destructor runs twice and no storage is freed twice, and storage is freed only after its
    destructor was entered. -/
theorem C50_at_most_once {c : Cfg} {s : St} (h : Reachable c s) (o : Nat) : s.dtors o ≤ 1 ∧ s.freed o ≤ s.dtors o := by
  have hi := inv_reach h
  have h1 := hi.dt o; have h2 := hi.fd o
  split at h1 <;> omega

/-- **C50, no leak.** When no variable and no manual reference refers to an object and every thread is idle, the object
    has been destroyed and freed exactly once. -/
theorem C50_no_leak {c : Cfg} {s : St} (h : Reachable c s) {o : Nat} (hm : s.made o = true)
    (hv : ∀ v, s.ptr v ≠ some o) (hr : s.raw o = 0) (hidle : ∀ t, s.fr t = []) : s.dtors o = 1 ∧ s.freed o = 1 := by
  have hi := inv_reach h
  have hT : ∀ f, T c f s = 0 := fun f => lsum_eq_zero _ _ (fun t _ => by rw [hidle t]; rfl)
  have h0 : lsum (hold o) s.ptr c.vars = 0 := lsum_eq_zero _ _ (fun v _ => by simp [hold, hv v])
  have h1 := hi.cnt o; have h2 := hi.dt o; have h3 := hi.fd o
  rw [hT] at h1 h2 h3
  rw [if_pos ⟨hm, by omega⟩] at h2
  omega

/-- **C50, promptness.** As soon as nothing owns an object (no variable, no manual reference, no call about to store or
    drop a reference), its destructor has been entered or some thread's next step enters it. -/
theorem C50_prompt {c : Cfg} {s : St} (h : Reachable c s) {o : Nat} (hm : s.made o = true)
    (hv : ∀ v, s.ptr v ≠ some o) (hr : s.raw o = 0)
    (hf : ∀ t f, f ∈ s.fr t → f ≠ .drop o ∧ ∀ d, f ≠ .put (some o) d) : s.dtors o = 1 ∨ ∃ t, Frame.del o ∈ s.fr t := by
  have hi := inv_reach h
  have hz : ∀ l : List Frame, (∀ f ∈ l, own o f = 0) → fsum (own o) l = 0 := by
    intro l; induction l with
    | nil => intro _; rfl
    | cons a l ih => intro hl; simp only [fsum, hl a (by simp), ih (fun f hf => hl f (by simp [hf]))]
  have hT : T c (own o) s = 0 := lsum_eq_zero _ _ (fun t _ => hz _ (fun f hff => by
    have := hf t f hff
    cases f with
    | put x d =>
        cases x with
        | none => rfl
        | some o' => simp only [own]; rw [if_neg]; rintro rfl; exact this.2 d rfl
    | drop o' => simp only [own]; rw [if_neg]; rintro rfl; exact this.1 rfl
    | inc _ _ _ => rfl
    | del _ => rfl
    | dtor _ => rfl))
  have h0 : lsum (hold o) s.ptr c.vars = 0 := lsum_eq_zero _ _ (fun v _ => by simp [hold, hv v])
  have h1 := hi.cnt o; have h2 := hi.dt o
  rw [if_pos ⟨hm, by omega⟩] at h2
  by_cases hd : s.dtors o = 1
  · exact Or.inl hd
  · right
    obtain ⟨t, _, ht⟩ := lsum_pos (fsum (isDel o)) s.fr (l := c.thr) (by
      show T c (isDel o) s ≠ 0
      omega)
    refine ⟨t, ?_⟩
    generalize s.fr t = l at ht
    induction l with
    | nil => exact absurd rfl ht
    | cons a l ih =>
        by_cases ha : isDel o a = 0
        · simp only [fsum, ha, Nat.zero_add] at ht; exact List.mem_cons_of_mem _ (ih ht)
        · cases a with
          | del o' =>
              simp only [isDel] at ha
              by_cases ho : o' = o
              · subst ho; simp
              · simp [ho] at ha
          | _ => exact absurd rfl ha

/-- **C50, no use after destruction.** No call ever touches the count or the value of an object that does not exist yet
    or whose destructor was entered, and no `delete` happens twice. -/
theorem C50_no_use_after_free {c : Cfg} {s : St} (h : Reachable c s) : s.bad = false := (inv_reach h).nb

/-- **C50, the count.** When every thread is idle the count of each object is the number of its owners. -/
theorem C50_count {c : Cfg} {s : St} (h : Reachable c s) (hidle : ∀ t, s.fr t = []) (o : Nat) :
    s.word o / 2 ^ c.R = (c.vars.filter (fun v => s.ptr v == some o)).length + s.raw o := by
  have hi := inv_reach h
  have hT : T c (own o) s = 0 := lsum_eq_zero _ _ (fun t _ => by rw [hidle t]; rfl)
  have h1 := hi.cnt o
  have h2 : ∀ l : List Nat, lsum (hold o) s.ptr l = (l.filter (fun v => s.ptr v == some o)).length := by
    intro l; induction l with
    | nil => rfl
    | cons a l ih =>
        by_cases ha : s.ptr a = some o
        · have : hold o (s.ptr a) = 1 := by simp [hold, ha]
          simp only [lsum, this, ih]; simp [ha]; omega
        · simp [lsum, hold, ha, List.filter_cons]; simpa [hold] using ih
  rw [h2, hT] at h1; exact h1

theorem testBit_add_pow {w R b : Nat} (hb : b < R) : (w + 2 ^ R).testBit b = w.testBit b := by
  have h1 : ((w + 2 ^ R) % 2 ^ R).testBit b = (w % 2 ^ R).testBit b := by rw [Nat.add_mod_right]
  rw [Nat.testBit_mod_two_pow, Nat.testBit_mod_two_pow] at h1
  simpa only [hb, decide_true, Bool.true_and] using h1

theorem testBit_sub_pow {w R b : Nat} (hb : b < R) (hw : 2 ^ R ≤ w) : (w - 2 ^ R).testBit b = w.testBit b := by
  have := testBit_add_pow (w := w - 2 ^ R) hb
  rw [Nat.sub_add_cancel hw] at this; exact this.symm

theorem testBit_clr {w b b' : Nat} : (clr w b).testBit b' = if b = b' then false else w.testBit b' := by
  unfold clr
  rw [Nat.testBit_xor, Nat.testBit_and, Nat.testBit_two_pow]
  by_cases h : b = b' <;> simp [h]

theorem testBit_or {w b b' : Nat} : (w ||| 2 ^ b).testBit b' = if b = b' then true else w.testBit b' := by
  rw [Nat.testBit_or, Nat.testBit_two_pow]
  by_cases h : b = b' <;> simp [h]

/-- The reserved bits of every word are what the calls wrote. -/
theorem bits_step {c : Cfg} {s s' : St} (a : Act) (hi : Inv c s) (he : step c s a = some s')
    (h : ∀ o b, b < c.R → (s.word o).testBit b = lastWrite b (s.hist o)) :
    ∀ o b, b < c.R → (s'.word o).testBit b = lastWrite b (s'.hist o) := by
  cases a with
  | go t =>
      simp only [step, go] at he
      split at he
      · cases he
      · cases he
        intro o b hb
        simp only [upd_apply]; split
        · subst_vars; rw [Cfg.one, testBit_add_pow hb]; exact h _ b hb
        · exact h o b hb
      · cases he; exact h
      · split at he <;> (cases he; exact h)
      · cases he; exact h
      · cases he; exact h
      · rename_i o1 k hs
        have hpos := own_pos hi hs (o := o1) (by simp [own])
        have hle := one_le_of_count hpos
        split at he
        · cases he
          intro o b hb
          simp only [upd_apply]; split
          · subst_vars; rw [Cfg.one, testBit_sub_pow hb hle]; exact h _ b hb
          · exact h o b hb
        · cases he
          intro o b hb
          simp only [upd_apply]; split
          · subst_vars; rw [Cfg.one, testBit_sub_pow hb hle]; exact h _ b hb
          · exact h o b hb
      · cases he; exact h
      · cases he; exact h
  | make t v o =>
      simp only [step] at he
      split at he
      case isFalse => cases he
      rename_i hg
      simp only [Bool.and_eq_true, Bool.not_eq_true'] at hg
      cases he
      intro x b hb
      have hx := h x b hb
      by_cases hxo : x = o
      · subst hxo
        rw [hi.fresh x hg.2] at hx
        simp only [push, upd_same, Cfg.one]
        rw [Nat.testBit_two_pow, ← hx]; simp; omega
      · simp only [push, upd_apply, hxo, if_false]; exact hx
  | copy t d w =>
      simp only [step] at he
      split at he
      case isFalse => cases he
      split at he <;> (cases he; exact h)
  | moveAssign t v w =>
      simp only [step] at he
      split at he
      case isFalse => cases he
      cases he
      cases hq : upd s.ptr w none v <;> exact h
  | destroy t v =>
      simp only [step] at he
      split at he
      case isFalse => cases he
      cases he
      cases hq : s.ptr v <;> exact h
  | reset t v =>
      simp only [step] at he
      split at he
      case isFalse => cases he
      cases he
      cases hq : s.ptr v <;> exact h
  | release t v =>
      simp only [step] at he
      split at he
      case isFalse => cases he
      split at he <;> (cases he; exact h)
  | setBit t q o b =>
      simp only [step] at he
      split at he
      case isFalse => cases he
      cases he
      intro x b' hb
      have hx := h x b' hb
      by_cases hxo : x = o
      · subst hxo; simp only [upd_same, lastWrite, testBit_or, hx]
      · simp only [upd_apply, hxo, if_false]; exact hx
  | clearBit t q o b =>
      simp only [step] at he
      split at he
      case isFalse => cases he
      cases he
      intro x b' hb
      have hx := h x b' hb
      by_cases hxo : x = o
      · subst hxo; simp only [upd_same, lastWrite, testBit_clr, hx]
      · simp only [upd_apply, hxo, if_false]; exact hx
  | fromRaw t d o =>
      simp only [step] at he
      split at he
      case isFalse => cases he
      cases he; exact h
  | moveCtor t v w =>
      simp only [step] at he
      split at he
      case isFalse => cases he
      cases he; exact h
  | swap t v w =>
      simp only [step] at he
      split at he
      case isFalse => cases he
      cases he; exact h
  | rawDec t o =>
      simp only [step] at he
      split at he
      case isFalse => cases he
      cases he; exact h
  | use t q o =>
      simp only [step] at he
      split at he
      case isFalse => cases he
      cases he; exact h

/-- **C50, reserved bits.** In every execution each reserved bit of each object holds the value last written to it by
    `__set_bit`/`__clear_bit` (initially clear): reference counting never disturbs the bits (and by the theorems above the
    bits never disturb the count). -/
theorem C50_bits {c : Cfg} {s : St} (h : Reachable c s) (o b : Nat) (hb : b < c.R) :
    (s.word o).testBit b = lastWrite b (s.hist o) := by
  have := Reach.inv' (init := init) (step := step c) (fun s => ∀ o b, b < c.R → (s.word o).testBit b = lastWrite b (s.hist o))
    (by intro o b _; simp [init, lastWrite]) (fun s a s' hr hp he => bits_step a (inv_reach hr) he hp) s h
  exact this o b hb

/-- Remaining steps of a call. -/
def Frame.cost : Frame → Nat
  | .inc _ _ _ => 5 | .put _ _ => 4 | .drop _ => 3 | .del _ => 2 | .dtor _ => 1

/-- The thread that performs an action. -/
def Act.thread : Act → Nat
  | .go t | .make t _ _ | .copy t _ _ | .fromRaw t _ _ | .moveCtor t _ _ | .moveAssign t _ _ | .destroy t _ | .reset t _
  | .swap t _ _ | .release t _ | .rawDec t _ | .setBit t _ _ _ | .clearBit t _ _ _ | .use t _ _ => t

/-- **C50, wait-freedom.** A thread inside a call can always take its next step, each such step brings the thread strictly
    closer to idleness, and no action of another thread interferes with this. -/
theorem C50_wait_free {c : Cfg} (s : St) (t : Nat) :
    (s.fr t ≠ [] → ∃ s', step c s (.go t) = some s' ∧ fsum Frame.cost (s'.fr t) < fsum Frame.cost (s.fr t)) ∧
    (∀ a s', a.thread ≠ t → step c s a = some s' → s'.fr t = s.fr t) := by
  constructor
  · intro hne
    cases hs : s.fr t with
    | nil => exact absurd hs hne
    | cons a k =>
        cases a with
        | inc q o d => simp [step, go, hs, fsum, Frame.cost]
        | put x d =>
            cases d with
            | ctor v => simp [step, go, hs, fsum, Frame.cost]
            | assign v => cases hp : s.ptr v <;> simp [step, go, hs, hp, fsum, Frame.cost]
            | raw => cases x <;> simp [step, go, hs, fsum, Frame.cost]
        | drop o =>
            by_cases h1 : count c (s.word o) = 1
            · simp [step, go, hs, h1, fsum, Frame.cost]
            · simp [step, go, hs, h1, fsum, Frame.cost]
        | del o => simp [step, go, hs, fsum, Frame.cost]
        | dtor o => simp [step, go, hs, fsum, Frame.cost]
  · intro a s' hu he
    have hx : ∀ u l, u ≠ t → upd s.fr u l t = s.fr t := fun u l hu => upd_other _ _ (Ne.symm hu)
    have hpd : ∀ (s1 : St) u x, s1.fr = s.fr → u ≠ t → (pushDrop s1 u x).fr t = s.fr t := by
      intro s1 u x h1 h2
      cases x with
      | none => simp [pushDrop, h1]
      | some o => simp only [pushDrop, push, h1]; exact hx u _ h2
    cases a <;> simp only [Act.thread] at hu <;> simp only [step, go] at he <;> (split at he) <;> first
      | (cases he; done)
      | (cases he; rfl)
      | (cases he; exact hx _ _ hu)
      | (cases he; exact hpd _ _ _ rfl hu)
      | (split at he <;> first
          | (cases he; exact hx _ _ hu)
          | (cases he; rfl))

/-- Two threads, three variables, two reserved bits. -/
def cfg3 : Cfg := ⟨2, [0, 1, 2], [0, 1], by decide, by decide⟩

/-- Non-vacuity: two owners in different threads; the last one out destroys the object. -/
example : ∃ s, Reachable cfg3 s ∧ (s.made 7 && decide (s.ptr 0 = none) && decide (s.ptr 1 = none) && decide (s.raw 7 = 0)
    && decide (s.fr 0 = []) && decide (s.fr 1 = []) && decide (s.dtors 7 = 1) && decide (s.freed 7 = 1)) = true :=
  Reach.witness [.make 0 0 7, .go 0, .copy 1 (.ctor 1) 0, .go 1, .go 1, .setBit 0 (.var 0) 7 1, .destroy 0 0, .destroy 1 1,
    .go 0, .go 1, .go 1, .go 1]
    (fun s : St => s.made 7 && decide (s.ptr 0 = none) && decide (s.ptr 1 = none) && decide (s.raw 7 = 0)
    && decide (s.fr 0 = []) && decide (s.fr 1 = []) && decide (s.dtors 7 = 1) && decide (s.freed 7 = 1)) (by rfl)

/-- Non-vacuity: a released reference keeps the object alive while bits are flipped. -/
example : ∃ s, Reachable cfg3 s ∧ (decide (s.raw 7 = 1) && decide (s.word 7 = 4 + 2) && decide (s.dtors 7 = 0)) = true :=
  Reach.witness [.make 0 0 7, .go 0, .release 0 0, .destroy 0 0, .setBit 1 .raw 7 0, .setBit 0 .raw 7 1, .clearBit 1 .raw 7 0]
    (fun s : St => decide (s.raw 7 = 1) && decide (s.word 7 = 4 + 2) && decide (s.dtors 7 = 0)) (by rfl)

/-- Non-vacuity: self-move and self-copy keep the object. -/
example : ∃ s, Reachable cfg3 s ∧ (decide (s.ptr 0 = some 7) && decide (s.word 7 = 4) && decide (s.dtors 7 = 0)
    && decide (s.fr 0 = [])) = true :=
  Reach.witness [.make 0 0 7, .go 0, .moveAssign 0 0 0, .copy 0 (.assign 0) 0, .go 0, .go 0, .go 0, .swap 0 0 0]
    (fun s : St => decide (s.ptr 0 = some 7) && decide (s.word 7 = 4) && decide (s.dtors 7 = 0)
    && decide (s.fr 0 = [])) (by rfl)

end Verif.IntrusivePtr
