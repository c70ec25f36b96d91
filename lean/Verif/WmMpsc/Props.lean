import Verif.WmMpsc.StepA
import Verif.WmMpsc.StepA1
import Verif.WmMpsc.StepA2
import Verif.WmMpsc.StepA3
import Verif.WmMpsc.StepB_adv
import Verif.WmMpsc.StepB_c4
import Verif.WmMpsc.StepB_c5
import Verif.WmMpsc.StepB_c6
import Verif.WmMpsc.StepB_clr
import Verif.WmMpsc.StepB_ex
import Verif.WmMpsc.StepB_hd
import Verif.WmMpsc.StepB_ldN
import Verif.WmMpsc.StepB_lk
import Verif.WmMpsc.StepB_put
import Verif.WmMpsc.StepB_use
import Verif.WmMpsc.StepK_adv
import Verif.WmMpsc.StepK_c4
import Verif.WmMpsc.StepK_c5
import Verif.WmMpsc.StepK_c6
import Verif.WmMpsc.StepK_clr
import Verif.WmMpsc.StepK_ex
import Verif.WmMpsc.StepK_hd
import Verif.WmMpsc.StepK_ldN
import Verif.WmMpsc.StepK_lk
import Verif.WmMpsc.StepK_put
import Verif.WmMpsc.StepK_use
import Verif.WmMpsc.Race
/-!
# The intrusive MPSC queue under the C++ memory model — theorems (C96)
-/
namespace Verif.WmMpsc

open Verif.WM

theorem range_ext {f g : Nat → Nat} {k : Nat} (h : ∀ j, j < k → f j = g j) : (List.range k).map f = (List.range k).map g :=
  List.map_congr_left fun j hj => h j (List.mem_range.1 hj)

/-- The nodes among the first `k` messages of the head. -/
def nodes (f : Nat → Nat) (k : Nat) : List Nat := ((List.range k).map f).filter (· ≠ 0)

theorem nodes_succ (f : Nat → Nat) (k : Nat) : nodes f (k + 1) = nodes f k ++ if f k = 0 then [] else [f k] := by
  unfold nodes
  rw [List.range_succ, List.map_append, List.filter_append]
  by_cases h : f k = 0 <;> simp [h]

theorem nodes_ext {f g : Nat → Nat} {k : Nat} (h : ∀ j, j < k → f j = g j) : nodes f k = nodes g k := by
  unfold nodes; rw [range_ext h]

theorem nodes_prefix (f : Nat → Nat) {j k : Nat} (h : j ≤ k) : nodes f j <+: nodes f k := by
  induction k with
  | zero => have : j = 0 := by omega
            subst this; exact List.prefix_refl _
  | succ k ih =>
    by_cases hj : j = k + 1
    · subst hj; exact List.prefix_refl _
    · rw [nodes_succ]; exact (ih (by omega)).trans (List.prefix_append _ _)

/-- The nodes pushed and the nodes returned. -/
structure O2 (s : St) : Prop where
  ordE : s.ord = nodes s.seq (s.kh + 1)
  outE : s.out = nodes s.seq (if isRet s.c then s.p - 1 else s.p)
  ordN : s.ord.Nodup
  ordM : ∀ n, n ∈ s.ord ↔ n ≠ 0 ∧ exd (s.pc n) = true

structure Inv (s : St) : Prop where
  a : A s
  b : B s
  k : K s
  o : O2 s
  noRace : s.m.race = false

theorem inv_init : Inv init := by
  refine ⟨?_, ?_, ?_, ?_, rfl⟩
  · constructor <;> simp (config := { contextual := true }) [init, Mem.init, exd, inner]
    all_goals grind
  · constructor <;> simp (config := { contextual := true }) [init, Mem.init, exd, inner]
    all_goals grind
  · constructor <;> simp (config := { contextual := true }) [init, Mem.init, exd, inner, Mem.logged]
  · constructor <;> simp (config := { contextual := true }) [init, exd, isRet, nodes]

/-- The consumer's position stays. -/
theorem o_same {s : St} {m' : Mem Loc Acc} {c' : CPC} {kn' : Nat → Nat} {l' : Nat → Bool} (h : O2 s) (h1 : isRet c' = isRet s.c) :
    O2 { s with m := m', c := c', lkd := l', kn := kn' } := by
  refine ⟨h.ordE, ?_, h.ordN, h.ordM⟩
  dsimp only; rw [h1]; exact h.outE

/-- A producer that neither exchanges the head nor has just done so. -/
theorem o_prod {s : St} {m' : Mem Loc Acc} {n : Nat} {p' : PC} {kn' : Nat → Nat} {l' : Nat → Bool} (h : O2 s)
    (h1 : exd p' = exd (s.pc n)) : O2 { s with m := m', pc := upd s.pc n p', lkd := l', kn := kn' } := by
  refine ⟨h.ordE, h.outE, h.ordN, fun m => ?_⟩
  dsimp only
  by_cases hm : m = n
  · subst hm; rw [upd_same, h1]; exact h.ordM m
  · rw [upd_other _ _ hm]; exact h.ordM m

theorem o_ex {s : St} {m' : Mem Loc Acc} {n x : Nat} (hA : A s) (h : O2 s) (hn : n ≠ 0) (hp : s.pc n = .ex) :
    O2 { s with m := m', pc := upd s.pc n (.lk x), ord := s.ord ++ [n], kh := s.kh + 1, seq := upd s.seq (s.kh + 1) n
                idx := upd s.idx n (s.kh + 1) } := by
  have hup : ∀ j, j ≤ s.kh → upd s.seq (s.kh + 1) n j = s.seq j := fun j hj => upd_other _ _ (by omega)
  have hno : n ∉ s.ord := fun h1 => by have := ((h.ordM n).1 h1).2; rw [hp] at this; cases this
  refine ⟨?_, ?_, ?_, fun m => ?_⟩
  · dsimp only
    rw [nodes_succ, upd_same, if_neg hn, nodes_ext (g := s.seq) (fun j hj => hup j (by omega)), ← h.ordE]
  · dsimp only
    rw [nodes_ext (g := s.seq) (fun j hj => hup j (by have := hA.pP.1; split at hj <;> omega))]
    exact h.outE
  · dsimp only
    rw [List.nodup_append]
    refine ⟨h.ordN, by simp, fun a ha b hb => ?_⟩
    simp only [List.mem_singleton] at hb
    rintro rfl; subst hb; exact hno ha
  · dsimp only
    rw [List.mem_append, List.mem_singleton, h.ordM m]
    by_cases hm : m = n
    · subst hm; simp [hn, exd]
    · rw [upd_other _ _ hm]; simp [hm]

theorem o_c5 {s : St} {m' : Mem Loc Acc} {x : Nat} (hA : A s) (h : O2 s) (hc : s.c = .c5) :
    O2 { s with m := m', c := .c6 x, kh := s.kh + 1, seq := upd s.seq (s.kh + 1) 0, sp := s.kh + 1 } := by
  have hup : ∀ j, j ≤ s.kh → upd s.seq (s.kh + 1) 0 j = s.seq j := fun j hj => upd_other _ _ (by omega)
  refine ⟨?_, ?_, h.ordN, h.ordM⟩
  · dsimp only
    rw [nodes_succ, upd_same, if_pos rfl, nodes_ext (g := s.seq) (fun j hj => hup j (by omega)), ← h.ordE, List.append_nil]
  · have h2 := h.outE
    rw [hc] at h2
    dsimp only
    simp only [isRet] at h2 ⊢
    rw [nodes_ext (g := s.seq) (fun j hj => hup j (by have := hA.pP.1; simp at hj; omega))]
    exact h2

theorem o_adv {s : St} {m' : Mem Loc Acc} {v : Nat} {c' : CPC} (hA : A s) (h : O2 s) (hc : isRet s.c = false)
    (hc' : (c' = .c1 ∧ s.tail = 0) ∨ (c' = .ret s.tail ∧ s.tail ≠ 0)) :
    O2 { s with m := m', c := c', tail := v, p := s.p + 1 } := by
  have h2 := h.outE
  rw [hc] at h2
  refine ⟨h.ordE, ?_, h.ordN, h.ordM⟩
  dsimp only
  rw [h2]
  rcases hc' with ⟨e1, e2⟩ | ⟨e1, e2⟩
  · have h5 := nodes_succ s.seq s.p
    rw [← hA.pP.2, if_pos e2, List.append_nil] at h5
    rw [e1]; simp [isRet, h5]
  · rw [e1]; simp [isRet]

theorem o_use {s : St} {m' : Mem Loc Acc} {x : Nat} (hA : A s) (h : O2 s) (hc : s.c = .ret x) :
    O2 { s with m := m', c := .c0, out := s.out ++ [x] } := by
  have h2 := h.outE
  rw [hc] at h2
  obtain ⟨e1, e2, e3⟩ := hA.ret x hc
  refine ⟨h.ordE, ?_, h.ordN, h.ordM⟩
  dsimp only
  simp only [isRet, if_true, if_false, Bool.false_eq_true] at h2 ⊢
  rw [h2]
  have h3 : s.p = (s.p - 1) + 1 := by omega
  have h4 := nodes_succ s.seq (s.p - 1)
  rw [← e2, if_neg e3, ← h3] at h4
  exact h4.symm

theorem inv_stepP {c : Cfg} (hX : c.ordX = .ar) (hL : c.ordL.isRel = true) {s s' : St} {n ts : Nat} (h : Inv s) (hn : n ≠ 0)
    (hs : stepP c s n ts = some s') : Inv s' := by
  unfold stepP at hs
  split at hs
  · rename_i hp
    cases hs
    refine ⟨A_put h.a hn hp, B_put h.a h.b hn hp, K_put h.a h.b h.k hn hp, o_prod h.o (by rw [hp]; rfl), ?_⟩
    obtain ⟨-, -, t3, -⟩ := touch_spec conf s.m n ⟨n, .put n⟩
    dsimp only; rw [t3, h.noRace, quiet_put h.k hn hp]; rfl
  · rename_i hp
    rw [Option.map_eq_some_iff] at hs
    obtain ⟨m', hm, rfl⟩ := hs
    refine ⟨A_clr h.a hn hp hm, B_clr h.a h.b hn hp hm, K_clr h.a h.b h.k hn hp hm, o_prod h.o (by rw [hp]; rfl), ?_⟩
    obtain ⟨-, -, -, t4, -⟩ := store_spec hm
    dsimp only; rw [t4, h.noRace, quiet_clr h.k hp]; rfl
  · rename_i hp
    rw [Option.map_eq_some_iff] at hs
    obtain ⟨⟨v, m'⟩, hm, rfl⟩ := hs
    refine ⟨A_ex h.a hn hX hp hm, B_ex h.a h.b hn hX hp hm, K_ex h.a h.b h.k hn hX hp hm, ?_, ?_⟩
    · obtain ⟨g, t1, -, -, t4, -⟩ := rmw_spec hm
      have := newest h.a t1 t4
      subst this
      exact o_ex h.a h.o hn hp
    · obtain ⟨g, t1, -, -, t4, -, t6, -⟩ := rmw_spec hm
      dsimp only; rw [t6, h.noRace, quiet_atom]; rfl
  · rename_i x hp
    rw [Option.map_eq_some_iff] at hs
    obtain ⟨m', hm, rfl⟩ := hs
    refine ⟨A_lk h.a hn hL hp hm, B_lk h.a h.b hn hL hp hm, K_lk h.a h.b h.k hn hL hp hm, o_prod h.o (by rw [hp]; rfl), ?_⟩
    obtain ⟨-, -, -, t4, -⟩ := store_spec hm
    dsimp only; rw [t4, h.noRace, quiet_lk h.a h.k hn hp]; rfl
  · cases hs

theorem race_ld {s : St} {o : Ord} {ts v : Nat} {m' : Mem Loc Acc} (h : Inv s)
    (hm : s.m.load conf o 0 (.next s.tail) ts ⟨0, .lnk s.tail⟩ = some (v, m')) : m'.race = false := by
  obtain ⟨g, -, -, -, -, -, t6, -⟩ := load_spec hm
  rw [t6, h.noRace, quiet_tail h.a h.k]; rfl

theorem inv_ldN {s : St} {o : Ord} {ts : Nat} {m' : Mem Loc Acc} {c' : CPC} (h : Inv s) (hc : s.c = .c0 ∨ s.c = .c1 ∨ s.c = .c7)
    (hc' : c' = .c0 ∨ (c' = .c3 ∧ s.tail ≠ 0)) (hm : s.m.load conf o 0 (.next s.tail) ts ⟨0, .lnk s.tail⟩ = some (0, m')) :
    Inv { s with m := m', c := c' } := by
  refine ⟨A_ldN h.a hc hc' hm, B_ldN h.a h.b hc hc' hm, K_ldN h.a h.b h.k hc hc' hm, o_same h.o ?_, race_ld h hm⟩
  rcases hc with hc | hc | hc <;> rcases hc' with e | ⟨e, -⟩ <;> rw [hc, e] <;> rfl

theorem inv_adv {s : St} {o : Ord} {ts v : Nat} {m' : Mem Loc Acc} {c' : CPC} (h : Inv s) (ho : o.isAcq = true)
    (hc : s.c = .c0 ∨ s.c = .c1 ∨ s.c = .c7) (hc' : (c' = .c1 ∧ s.tail = 0) ∨ (c' = .ret s.tail ∧ s.tail ≠ 0)) (hv : v ≠ 0)
    (hm : s.m.load conf o 0 (.next s.tail) ts ⟨0, .lnk s.tail⟩ = some (v, m')) :
    Inv { s with m := m', c := c', tail := v - 1, p := s.p + 1 } := by
  refine ⟨A_adv h.a h.b ho hc hc' hv hm, B_adv h.a h.b ho hc hc' hv hm, K_adv h.a h.b h.k ho hc hc' hv hm, o_adv h.a h.o ?_ hc',
    race_ld h hm⟩
  rcases hc with hc | hc | hc <;> rw [hc] <;> rfl

theorem inv_stepC {c : Cfg} (hX : c.ordX = .ar) (hL : c.ordL.isRel = true) (hN : c.ordN.isAcq = true) {s s' : St} {ts : Nat} (h : Inv s)
    (hs : stepC c s ts = some s') : Inv s' := by
  unfold stepC at hs
  split at hs
  · rename_i hc
    rw [Option.map_eq_some_iff] at hs
    obtain ⟨⟨v, m'⟩, hm, rfl⟩ := hs
    dsimp only
    split
    · rename_i hv; subst hv
      exact inv_ldN h (.inl hc) (by split <;> simp_all) hm
    · rename_i hv
      exact inv_adv h hN (.inl hc) (by split <;> simp_all) hv hm
  · rename_i hc
    have ht := h.a.inn (by rw [hc]; rfl)
    rw [Option.map_eq_some_iff] at hs
    obtain ⟨⟨v, m'⟩, hm, rfl⟩ := hs
    dsimp only
    split
    · rename_i hv; subst hv
      exact inv_ldN h (.inr (.inl hc)) (.inr ⟨rfl, ht⟩) hm
    · rename_i hv
      exact inv_adv h hN (.inr (.inl hc)) (.inr ⟨rfl, ht⟩) hv hm
  · rename_i hc
    rw [Option.map_eq_some_iff] at hs
    obtain ⟨⟨v, m'⟩, hm, rfl⟩ := hs
    refine ⟨A_hd h.a h.b hc hm, B_hd h.a h.b hc hm, K_hd h.a h.b h.k hc hm, o_same h.o (by rw [hc]; split <;> rfl), ?_⟩
    obtain ⟨g, -, -, -, -, -, t6, -⟩ := load_spec hm
    dsimp only; rw [t6, h.noRace, quiet_atom]; rfl
  · rename_i hc
    rw [Option.map_eq_some_iff] at hs
    obtain ⟨m', hm, rfl⟩ := hs
    refine ⟨A_c4 h.a hc hm, B_c4 h.a h.b hc hm, K_c4 h.a h.b h.k hc hm, o_same h.o (by rw [hc]; rfl), ?_⟩
    obtain ⟨-, -, -, t4, -⟩ := store_spec hm
    dsimp only; rw [t4, h.noRace, quiet_stub h.k]; rfl
  · rename_i hc
    rw [Option.map_eq_some_iff] at hs
    obtain ⟨⟨v, m'⟩, hm, rfl⟩ := hs
    refine ⟨A_c5 h.a hX hc hm, B_c5 h.a h.b hX hc hm, K_c5 h.a h.b h.k hX hc hm, ?_, ?_⟩
    · obtain ⟨g, t1, -, -, t4, -⟩ := rmw_spec hm
      have := newest h.a t1 t4
      subst this
      exact o_c5 h.a h.o hc
    · obtain ⟨g, t1, -, -, t4, -, t6, -⟩ := rmw_spec hm
      dsimp only; rw [t6, h.noRace, quiet_atom]; rfl
  · rename_i x hc
    rw [Option.map_eq_some_iff] at hs
    obtain ⟨m', hm, rfl⟩ := hs
    refine ⟨A_c6 h.a hL hc hm, B_c6 h.a h.b hL hc hm, K_c6 h.a h.b h.k hL hc hm, o_same h.o (by rw [hc]; rfl), ?_⟩
    obtain ⟨-, -, -, t4, -⟩ := store_spec hm
    dsimp only; rw [t4, h.noRace, quiet_c6 h.a h.k hc]; rfl
  · rename_i hc
    have ht := h.a.inn (by rw [hc]; rfl)
    rw [Option.map_eq_some_iff] at hs
    obtain ⟨⟨v, m'⟩, hm, rfl⟩ := hs
    dsimp only
    split
    · rename_i hv; subst hv
      exact inv_ldN h (.inr (.inr hc)) (.inl rfl) hm
    · rename_i hv
      exact inv_adv h hN (.inr (.inr hc)) (.inr ⟨rfl, ht⟩) hv hm
  · rename_i x hc
    cases hs
    refine ⟨A_use h.a hc, B_use h.a h.b hc, K_use h.a h.b h.k hc, o_use h.a h.o hc, ?_⟩
    obtain ⟨-, -, t3, -⟩ := touch_spec conf s.m 0 ⟨0, .use x⟩
    dsimp only; rw [t3, h.noRace, quiet_use h.k hc]; rfl

/-- The orders of `push_back` and `pop_front` that matter. -/
structure Good (c : Cfg) : Prop where
  x : c.ordX = .ar
  l : c.ordL.isRel = true
  n : c.ordN.isAcq = true

theorem inv_reach {c : Cfg} (hg : Good c) {s : St} (h : Reachable c s) : Inv s :=
  Reach.inv Inv inv_init (fun s a s' hi he => by
    unfold step at he
    split at he
    · exact inv_stepC hg.x hg.l hg.n hi he
    · rename_i hn; exact inv_stepP hg.x hg.l hi hn he) s h

/-- **C96**: when threads push nodes and one thread pops them, nothing races: what a producer wrote in a node happens before the
consumer's use of it, and so does every access to its link by anybody… -/
theorem C96_no_race {c : Cfg} (hg : Good c) {s : St} (h : Reachable c s) : s.m.race = false := (inv_reach hg h).noRace

/-- **C96**: …in particular nobody accesses a node that has been popped and used (destroyed)… -/
theorem C96_no_uaf {c : Cfg} (hg : Good c) {s : St} (h : Reachable c s) (j k n : Nat) (a b : Acc) (hj : s.m.logged j a)
    (hk : s.m.logged k b) (ha : a.what = .use n) (hb : b.what.on n = true) : k ≤ j :=
  (inv_reach hg h).k.freeLast j k a b n hj hk ha hb

/-- **C96**: …the nodes popped are the first of those pushed, in the order in which the pushes took effect… -/
theorem C96_fifo {c : Cfg} (hg : Good c) {s : St} (h : Reachable c s) : s.out <+: s.ord := by
  have hi := inv_reach hg h
  rw [hi.o.ordE, hi.o.outE]
  refine nodes_prefix _ ?_
  have := hi.a.pP.1
  split <;> omega

/-- **C96**: …no node is popped twice… -/
theorem C96_once {c : Cfg} (hg : Good c) {s : St} (h : Reachable c s) : s.out.Nodup :=
  (inv_reach hg h).o.ordN.sublist (C96_fifo hg h).sublist

/-- **C96**: …nor one that was not pushed… -/
theorem C96_pushed {c : Cfg} (hg : Good c) {s : St} (h : Reachable c s) (n : Nat) (hn : n ∈ s.out) : n ≠ 0 ∧ exd (s.pc n) = true :=
  ((inv_reach hg h).o.ordM n).1 ((C96_fifo hg h).subset hn)

/-- **C96**: …and every push takes effect. -/
theorem C96_effect {c : Cfg} (hg : Good c) {s : St} (h : Reachable c s) (n : Nat) (h0 : n ≠ 0) (hn : s.pc n = .done) : n ∈ s.ord :=
  ((inv_reach hg h).o.ordM n).2 ⟨h0, by rw [hn]; rfl⟩

/-- The code's orders suffice. -/
theorem code_good : Good code := ⟨rfl, rfl, rfl⟩

/-- Thread 1 pushes, the consumer pops. -/
def ex1 : List (Nat × Nat) := [(1, 0), (1, 1), (1, 0), (1, 1), (0, 1), (0, 1)]

/-- Threads 1 and 2 push. -/
def ex2 : List (Nat × Nat) := [(1, 0), (1, 1), (1, 0), (2, 0), (2, 1), (2, 1), (2, 2)]

/-- **C96**: weaker orders do not do. -/
theorem C96_orders_needed :
    (∀ o : Ord, o ≠ .ar → ∃ s, Reachable { code with ordX := o } s ∧ s.m.race = true) ∧
    (∀ o : Ord, o.isRel = false → ∃ s, Reachable { code with ordL := o } s ∧ s.m.race = true) ∧
    (∀ o : Ord, o.isAcq = false → ∃ s, Reachable { code with ordN := o } s ∧ s.m.race = true) := by
  refine ⟨fun o h => ?_, fun o h => ?_, fun o h => ?_⟩
  · exact Reach.witness (init := init) (step := step { code with ordX := o }) ex2 (fun s : St => s.m.race)
      (by cases o <;> first | exact absurd rfl h | decide +kernel)
  · exact Reach.witness (init := init) (step := step { code with ordL := o }) ex1 (fun s : St => s.m.race)
      (by cases o <;> first | (cases h; done) | decide +kernel)
  · exact Reach.witness (init := init) (step := step { code with ordN := o }) ex1 (fun s : St => s.m.race)
      (by cases o <;> first | (cases h; done) | decide +kernel)

/-- Two threads push concurrently, the second exchanges the head first; the consumer pops both nodes, the second with the stub pushed
behind it. -/
example : ∃ s, Reachable code s ∧ s.m.race = false ∧ s.out = [2, 1] ∧ s.ord = [2, 1] ∧ s.c = .c0 := by
  obtain ⟨s, hs, hr⟩ := Reach.witness (init := init) (step := step code)
    [(1, 0), (1, 1), (2, 0), (2, 1), (2, 0), (1, 1), (2, 1), (0, 1), (1, 2), (0, 2), (0, 0), (0, 1), (0, 2), (0, 2), (0, 2), (0, 2),
     (0, 2), (0, 0)]
    (fun s : St => decide (s.m.race = false ∧ s.out = [2, 1] ∧ s.ord = [2, 1] ∧ s.c = .c0)) (by decide +kernel)
  exact ⟨s, hs, of_decide_eq_true hr⟩

end Verif.WmMpsc
