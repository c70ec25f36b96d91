import Verif.Domain.Model

namespace Verif.Domain

variable {T S : Type} [DecidableEq T]

/-! ### Specification -/

/-- The domain that transforms a sender of type `t` in a phase: its completing domain, or the starting domain. -/
def dom (w : World T S) (op : Op) (t : T) : Dom := if op = .start then w.sd else w.cd t

/-- `m` comes from `s` by transformations, each made by the domain of the sender that is transformed and each but the last changing the type. -/
inductive Chain (w : World T S) (op : Op) : S → S → Prop
  | last (s m : S) : app w (dom w op (w.ty s)) op s = .ok m → w.ty m = w.ty s → Chain w op s m
  | more (s r m : S) : app w (dom w op (w.ty s)) op s = .ok r → w.ty r ≠ w.ty s → Chain w op r m → Chain w op s m

/-! ### Proofs -/

theorem next_dom (w : World T S) (op : Op) (t t' : T) : next w (dom w op t) op t' = dom w op t' := by
  unfold next dom; split <;> rfl

theorem app_rty {w : World T S} (hw : w.Ok) {d : Dom} {op : Op} {s r : S} {t : T} (h : app w d op s = .ok r) (ht : rty w d op (w.ty s) = some t) :
    w.ty r = t := by
  cases d with
  | dflt => simp only [rty, Option.some.injEq] at ht; rw [← ht]; exact hw.drt op s r h
  | user n =>
    simp only [rty, Option.some.injEq] at ht
    simp only [app] at h
    by_cases hh : w.has n op (w.ty s) = true
    · rw [if_pos hh] at ht h; rw [← ht]; exact hw.urt n op s r hh h
    · rw [if_neg hh] at ht h; rw [← ht]; exact hw.drt op s r h
  | indet ns =>
    simp only [rty] at ht
    split at ht
    · cases ht; exact hw.drt op s r h
    · cases ht

theorem app_nt {w : World T S} (hw : w.Ok) {d : Dom} {op : Op} {s : S} {e : Nat} (h : app w d op s = .thrown e) : nt w d op (w.ty s) = false := by
  cases d with
  | dflt => exact hw.dnx op s e h
  | user n =>
    simp only [app] at h
    simp only [nt]
    by_cases hh : w.has n op (w.ty s) = true
    · rw [if_pos hh] at h ⊢; exact hw.unx n op s e hh h
    · rw [if_neg hh] at h ⊢; exact hw.dnx op s e h
  | indet ns => exact hw.dnx op s e h

theorem decl_rty {w : World T S} {op : Op} {n : Nat} {d : Dom} {t : T} {b : Bool} {x : T × Bool} (h : decl w op (n + 1) d t b = some x) :
    ∃ r, rty w d op t = some r := by
  simp only [decl] at h
  cases hr : rty w d op t with
  | none => rw [hr] at h; cases h
  | some r => exact ⟨r, rfl⟩

theorem guard_value {nx : Bool} {o : Out S} {m : S} (h : guard nx o = .value m) : o = .value m := by
  cases o with
  | value s => exact h
  | thrown e => simp only [guard] at h; split at h <;> cases h
  | terminate => cases h

theorem run_chain {w : World T S} {op : Op} (n : Nat) (s m : S) (h : run w op n (dom w op (w.ty s)) s = some (.value m)) : Chain w op s m := by
  induction n generalizing s with
  | zero => cases h
  | succ n ih =>
    simp only [run] at h
    split at h
    · cases h
    · split at h
      · rename_i he
        simp only [Option.some.injEq] at h
        cases guard_value h
      · rename_i r he
        split at h
        · rename_i hty
          simp only [Option.some.injEq] at h
          cases guard_value h
          exact .last s _ he hty
        · rename_i hty
          rw [next_dom, Option.map_eq_some_iff] at h
          obtain ⟨o, ho, hg⟩ := h
          have := guard_value hg
          subst this
          exact .more s r m he hty (ih r ho)

theorem run_fix {w : World T S} (hw : w.Ok) {op : Op} (n : Nat) (s m : S) (h : run w op n (dom w op (w.ty s)) s = some (.value m)) :
    rty w (dom w op (w.ty m)) op (w.ty m) = some (w.ty m) := by
  induction n generalizing s with
  | zero => cases h
  | succ n ih =>
    simp only [run] at h
    split at h
    · cases h
    · rename_i x nx hd
      obtain ⟨t, ht⟩ := decl_rty hd
      split at h
      · rename_i he
        simp only [Option.some.injEq] at h
        cases guard_value h
      · rename_i r he
        split at h
        · rename_i hty
          simp only [Option.some.injEq] at h
          cases guard_value h
          have := app_rty hw he ht
          rw [hty, ht, ← this, hty]
        · rename_i hty
          rw [next_dom, Option.map_eq_some_iff] at h
          obtain ⟨o, ho, hg⟩ := h
          have := guard_value hg
          subst this
          exact ih r ho

theorem transform_split {w : World T S} {n : Nat} {s r : S} (h : transform w n s = some (.value r)) :
    ∃ m, run w .value n (dom w .value (w.ty s)) s = some (.value m) ∧ run w .start n (dom w .start (w.ty m)) m = some (.value r) := by
  simp only [transform] at h
  split at h
  · cases h
  · split at h
    · cases h
    · split at h
      · cases h
      · rename_i m hm
        rw [Option.map_eq_some_iff] at h
        obtain ⟨o, ho, hg⟩ := h
        have := guard_value hg
        subst this
        exact ⟨m, hm, ho⟩
      · rename_i o hno ho
        simp only [Option.some.injEq] at h
        have := guard_value h
        subst this
        exact absurd rfl (hno _)

/-- The sender that is connected comes from the given one by the transformations of the domains on which the successive senders complete, until
the type no longer changes, and then by those of the domain on which it is started, until the type no longer changes; and the same
transformations would not change the types again. -/
theorem C101_phases (w : World T S) (hw : w.Ok) (n : Nat) (s r : S) (h : transform w n s = some (.value r)) :
    ∃ m, Chain w .value s m ∧ Chain w .start m r ∧ rty w (w.cd (w.ty m)) .value (w.ty m) = some (w.ty m) ∧
      rty w w.sd .start (w.ty r) = some (w.ty r) := by
  obtain ⟨m, h1, h2⟩ := transform_split h
  exact ⟨m, run_chain n s m h1, run_chain n m r h2, run_fix hw n s m h1, run_fix hw n m r h2⟩

/-- If different domains come together and the program compiles, each of them would have given a sender of the same type. -/
theorem C101_indeterminate (w : World T S) (ns : List Nat) (op : Op) (t r : T) (h : rty w (.indet ns) op t = some r) (k : Nat) (hk : k ∈ ns) :
    rty w (.user k) op t = some r := by
  simp only [rty] at h ⊢
  split at h
  · rename_i ha
    cases h
    have := List.all_eq_true.mp ha k hk
    simp only [dflike, Bool.or_eq_true, Bool.not_eq_true', decide_eq_true_eq] at this
    by_cases hh : w.has k op t = true
    · rw [if_pos hh]
      rcases this with e | e
      · rw [e] at hh; cases hh
      · rw [e]
    · rw [if_neg hh]
  · cases h

/-- A sender that no domain and no algorithm customises is connected as it is. -/
theorem C101_unchanged (w : World T S) (n : Nat) (s : S) (h1 : app w (w.cd (w.ty s)) .value s = .ok s) (h2 : app w w.sd .start s = .ok s)
    (h3 : rty w (w.cd (w.ty s)) .value (w.ty s) = some (w.ty s)) (h4 : rty w w.sd .start (w.ty s) = some (w.ty s)) :
    transform w (n + 1) s = some (.value s) := by
  simp [transform, decl, h3, h4, run, h1, h2, guard]

/-- The declared result type is the type of the result. -/
theorem run_decl {w : World T S} (hw : w.Ok) {op : Op} (n : Nat) (d : Dom) (s m : S) (b : Bool) (h : run w op n d s = some (.value m)) :
    ∃ nx, decl w op n d (w.ty s) b = some (w.ty m, nx) := by
  induction n generalizing s d b with
  | zero => cases h
  | succ n ih =>
    simp only [run] at h
    split at h
    · cases h
    · rename_i x nx hd
      obtain ⟨t, ht⟩ := decl_rty hd
      split at h
      · simp only [Option.some.injEq] at h
        cases guard_value h
      · rename_i r he
        have hrt := app_rty hw he ht
        split at h
        · rename_i hty
          simp only [Option.some.injEq] at h
          cases guard_value h
          simp only [decl, ht]
          rw [if_pos (by rw [← hrt, hty])]
          exact ⟨_, by rw [hrt]⟩
        · rename_i hty
          rw [Option.map_eq_some_iff] at h
          obtain ⟨o, ho, hg⟩ := h
          have := guard_value hg
          subst this
          simp only [decl, ht]
          rw [if_neg (by rw [← hrt]; exact hty), ← hrt]
          exact ih _ _ _ ho

theorem decl_more {w : World T S} {op : Op} {n : Nat} {d : Dom} {t : T} {b c : Bool} {x : T × Bool} (h : decl w op n d t b = some x) (k : Nat) :
    decl w op (n + k) d t c = some x := by
  induction n generalizing d t b c with
  | zero => cases h
  | succ n ih =>
    rw [show n + 1 + k = n + k + 1 by omega]
    simp only [decl] at h ⊢
    cases hr : rty w d op t with
    | none => rw [hr] at h; cases h
    | some r =>
      rw [hr] at h
      simp only at h ⊢
      split
      · rename_i e; rw [if_pos e] at h; exact h
      · rename_i e; rw [if_neg e] at h; exact ih h

/-- If every change of type brings some measure down and no domain is ambiguous, the transformation is finite. -/
theorem C101_finite (w : World T S) (op : Op) (μ : T → Nat) (hr : ∀ t, rty w (dom w op t) op t ≠ none)
    (hμ : ∀ t r, rty w (dom w op t) op t = some r → r ≠ t → μ r < μ t) (t : T) (n : Nat) (hn : μ t < n) :
    decl w op n (dom w op t) t true ≠ none := by
  suffices ∀ n t b, μ t < n → decl w op n (dom w op t) t b ≠ none from this n t true hn
  intro n
  induction n with
  | zero => intro t b h; omega
  | succ n ih =>
    intro t b h
    obtain ⟨r, e⟩ := Option.ne_none_iff_exists'.mp (hr t)
    simp only [decl, e]
    split
    · simp
    · rename_i hne
      rw [next_dom]
      exact ih r _ (by have := hμ t r e hne; omega)

/-! ### Exceptions

In full: what a transformation throws reaches the caller of `transform_sender`. This is so if only transformations that keep the type throw; in
general it is not (`C101_throw_false`): whether the whole is `noexcept` is decided by the last transformation alone. -/

theorem run_throw {w : World T S} (hw : w.Ok) {op : Op} (ht : ∀ d s e, app w d op s = .thrown e → rty w d op (w.ty s) = some (w.ty s))
    (n : Nat) (d : Dom) (s : S) : run w op n d s ≠ some .terminate ∧
      ∀ e b x, run w op n d s = some (.thrown e) → decl w op n d (w.ty s) b = some x → x.2 = false := by
  induction n generalizing s d with
  | zero => exact ⟨by simp [run], by simp [run]⟩
  | succ n ih =>
    simp only [run]
    cases hd : decl w op (n + 1) d (w.ty s) true with
    | none => exact ⟨by simp, by simp⟩
    | some x =>
      obtain ⟨t, nx⟩ := x
      simp only
      cases ha : app w d op s with
      | thrown e =>
        have h1 := ht d s e ha
        have h2 := app_nt hw ha
        simp only [decl, h1, if_true, h2, Option.some.injEq, Prod.mk.injEq] at hd
        rw [← hd.2]
        refine ⟨by simp [guard], fun e b x _ hx => ?_⟩
        simp only [decl, h1, if_true, h2, Option.some.injEq] at hx
        rw [← hx]
      | ok r =>
        simp only
        split
        · exact ⟨by simp [guard], fun e b x hx _ => by simp [guard] at hx⟩
        · rename_i hty
          obtain ⟨q, hq⟩ := decl_rty hd
          have hrt := app_rty hw ha hq
          have hd2 : ∀ b x, decl w op (n + 1) d (w.ty s) b = some x → ∃ c, decl w op n (next w d op (w.ty r)) (w.ty r) c = some x := by
            intro b x hx
            simp only [decl, hq] at hx
            rw [if_neg (by rw [← hrt]; exact hty), ← hrt] at hx
            exact ⟨_, hx⟩
          obtain ⟨i1, i2⟩ := ih (next w d op (w.ty r)) r
          cases ho : run w op n (next w d op (w.ty r)) r with
          | none => exact ⟨by simp, by simp⟩
          | some o =>
            cases o with
            | value m => exact ⟨by simp [guard], fun e b x hx _ => by simp [guard] at hx⟩
            | terminate => exact absurd ho i1
            | thrown e =>
              obtain ⟨c, hc⟩ := hd2 true _ hd
              have hnx := i2 e c _ ho hc
              simp only at hnx
              subst hnx
              refine ⟨by simp [guard], fun e' b x _ hx => ?_⟩
              obtain ⟨c, hc⟩ := hd2 b x hx
              exact i2 e c _ ho hc

/-- No exception ends the program, if only transformations that keep the type throw. -/
theorem C101_throw_partial (w : World T S) (hw : w.Ok) (ht : ∀ d op s e, app w d op s = .thrown e → rty w d op (w.ty s) = some (w.ty s))
    (n : Nat) (s : S) : transform w n s ≠ some .terminate := by
  simp only [transform]
  cases h2 : decl w .value n (w.cd (w.ty s)) (w.ty s) true with
  | none => simp
  | some x2 =>
    obtain ⟨t, nx2⟩ := x2
    simp only
    cases h1 : decl w .start n w.sd t true with
    | none => simp
    | some x1 =>
      obtain ⟨t1, nx1⟩ := x1
      simp only
      obtain ⟨a1, a2⟩ := run_throw hw (fun d s e => ht d .value s e) n (w.cd (w.ty s)) s
      cases ho : run w .value n (w.cd (w.ty s)) s with
      | none => simp
      | some o =>
        cases o with
        | terminate => exact absurd ho a1
        | thrown e =>
          have := a2 e true _ ho h2
          simp only at this
          simp [guard, this]
        | value m =>
          simp only
          obtain ⟨b1, b2⟩ := run_throw hw (fun d s e => ht d .start s e) n w.sd m
          obtain ⟨nx, hm⟩ := run_decl hw n _ s m true ho
          rw [h2] at hm
          simp only [Option.some.injEq, Prod.mk.injEq] at hm
          cases hr : run w .start n w.sd m with
          | none => simp
          | some o =>
            cases o with
            | terminate => exact absurd hr b1
            | value r => simp [guard]
            | thrown e =>
              rw [hm.1] at h1
              have := b2 e true _ hr h1
              simp only at this
              simp [guard, this]

/-! ### Examples

Senders are pairs of a type and a value. Type 0 is an algorithm like `on`, which lowers itself to type 1, and may throw while it copies what it
contains; type 1 is an algorithm that the domain 7 replaces by type 2; type 3 is the replacement by the starting domain 8 of type 2. -/

def toy (sd : Dom) (throws : Bool) : World Nat (Nat × Nat) where
  ty s := s.1
  has k op t := (k == 7 && op == .value && t == 1) || (k == 8 && op == .start && t == 2)
  urty k _ _ := if k = 7 then 2 else 3
  uapp k _ s := .ok (if k = 7 then 2 else 3, s.2 + 1)
  unt _ _ _ := true
  drty op t := if op = .value ∧ t = 0 then 1 else t
  dapp op s := if op = .value ∧ s.1 = 0 then (if throws then .thrown 9 else .ok (1, s.2)) else .ok s
  dnt op t := !(throws && op == .value && t == 0)
  cd t := if t = 1 ∨ t = 2 ∨ t = 3 then .user 7 else .dflt
  sd := sd

theorem toy_ok (sd : Dom) (b : Bool) : (toy sd b).Ok := by
  refine ⟨fun n op s r _ h => ?_, fun n op s e _ h => ?_, fun op s r h => ?_, fun op s e h => ?_⟩
  · simp only [toy, Ex.ok.injEq] at h ⊢; rw [← h]
  · simp [toy] at h
  · simp only [toy] at h ⊢
    split at h
    · rename_i hh
      split at h
      · cases h
      · cases h; rw [if_pos hh]
    · rename_i hh; cases h; rw [if_neg hh]
  · simp only [toy] at h ⊢
    split at h
    · rename_i hh
      split at h
      · rename_i hb; simp [hb, hh.1, hh.2]
      · cases h
    · cases h

example : transform (toy (.user 8) false) 9 (0, 5) = some (.value (3, 7)) := by decide +kernel
example : transform (toy .dflt false) 9 (0, 5) = some (.value (2, 6)) := by decide +kernel
example : transform (toy .dflt false) 2 (0, 5) = none := by decide +kernel
example : transform (toy .dflt true) 1 (4, 5) = some (.value (4, 5)) := by decide +kernel
example : ∀ d op s e, app (toy .dflt false) d op s = .thrown e → rty (toy .dflt false) d op ((toy .dflt false).ty s) = some ((toy .dflt false).ty s) := by
  intro d op s e h
  exfalso
  cases d <;> simp only [app, toy, Bool.false_eq_true, if_false] at h <;> repeat' split at h
  all_goals cases h

/-- A first transformation that may throw, and a last one that may not: what the first throws ends the program. -/
theorem C101_throw_false : ∃ (w : World Nat (Nat × Nat)), w.Ok ∧ app w (w.cd 0) .value (0, 5) = .thrown 9 ∧ transform w 9 (0, 5) = some .terminate :=
  ⟨toy .dflt true, toy_ok _ _, by decide +kernel, by decide +kernel⟩

/-- The sender that is connected may be one that its completing domain would transform again. -/
theorem C101_not_again : ∃ (w : World Nat (Nat × Nat)) (n : Nat) (s r : Nat × Nat), w.Ok ∧ transform w n s = some (.value r) ∧
    rty w (w.cd (w.ty r)) .value (w.ty r) ≠ some (w.ty r) := by
  refine ⟨{ toy (.user 8) false with
    urty := fun k _ _ => if k = 7 then 2 else 0, uapp := fun k _ s => .ok (if k = 7 then 2 else 0, s.2 + 1) }, 9, (0, 5), (0, 7), ?_, ?_, ?_⟩
  · refine ⟨fun n op s r _ h => ?_, fun n op s e _ h => ?_, (toy_ok (.user 8) false).drt, (toy_ok (.user 8) false).dnx⟩
    · simp only [toy, Ex.ok.injEq] at h ⊢; rw [← h]
    · simp at h
  · decide +kernel
  · decide +kernel

end Verif.Domain
