import Verif.WmMpsc.Props
import Verif.WM.Wf
import Verif.Run
/-!
# The intrusive MPSC queue under the C++ memory model — no node is lost (C96)
-/
namespace Verif.WmMpsc

open Verif.WM

/-- The consumer alone gets from `s` to `s'`. -/
def Solo (c : Cfg) (s s' : St) : Prop := ∃ l : List Nat, exec (step c) s (l.map fun ts => (0, ts)) = some s'

theorem Solo.refl (c : Cfg) (s : St) : Solo c s s := ⟨[], rfl⟩

theorem Solo.trans {c : Cfg} {s s' s'' : St} (h1 : Solo c s s') (h2 : Solo c s' s'') : Solo c s s'' := by
  obtain ⟨l1, h1⟩ := h1
  obtain ⟨l2, h2⟩ := h2
  exact ⟨l1 ++ l2, by rw [List.map_append, exec_append, h1]; exact h2⟩

theorem Solo.one {c : Cfg} {s s' : St} {ts : Nat} (h : stepC c s ts = some s') : Solo c s s' :=
  ⟨[ts], by simp [exec, step, h]⟩

/-- The invariant, and that views point to messages that exist. -/
structure Ok (s : St) : Prop where
  i : Inv s
  w : s.m.Wf
  /-- no push is under way -/
  q : ∀ n x, s.pc n ≠ .lk x

theorem wf_stepC {c : Cfg} {s s' : St} {ts : Nat} (h : s.m.Wf) (hs : stepC c s ts = some s') : s'.m.Wf := by
  unfold stepC at hs
  split at hs <;> try rw [Option.map_eq_some_iff] at hs
  · obtain ⟨⟨v, m'⟩, hm, rfl⟩ := hs; dsimp only; split <;> exact h.load hm
  · obtain ⟨⟨v, m'⟩, hm, rfl⟩ := hs; dsimp only; split <;> exact h.load hm
  · obtain ⟨⟨v, m'⟩, hm, rfl⟩ := hs; exact h.load hm
  · obtain ⟨m', hm, rfl⟩ := hs; exact h.store hm
  · obtain ⟨⟨v, m'⟩, hm, rfl⟩ := hs; exact h.rmw hm
  · obtain ⟨m', hm, rfl⟩ := hs; exact h.store hm
  · obtain ⟨⟨v, m'⟩, hm, rfl⟩ := hs; dsimp only; split <;> exact h.load hm
  · cases hs; exact h.touch _ _

theorem wf_step {c : Cfg} {s s' : St} {a : Nat × Nat} (h : s.m.Wf) (hs : step c s a = some s') : s'.m.Wf := by
  unfold step at hs
  split at hs
  · exact wf_stepC h hs
  · unfold stepP at hs
    split at hs <;> try rw [Option.map_eq_some_iff] at hs
    · cases hs; exact h.touch _ _
    · obtain ⟨m', hm, rfl⟩ := hs; exact h.store hm
    · obtain ⟨⟨v, m'⟩, hm, rfl⟩ := hs; exact h.rmw hm
    · obtain ⟨m', hm, rfl⟩ := hs; exact h.store hm
    · cases hs

theorem pc_stepC {c : Cfg} {s s' : St} {ts : Nat} (hs : stepC c s ts = some s') : s'.pc = s.pc ∧ s'.ord = s.ord := by
  unfold stepC at hs
  split at hs <;> try rw [Option.map_eq_some_iff] at hs
  · obtain ⟨⟨v, m'⟩, hm, rfl⟩ := hs; dsimp only; split <;> exact ⟨rfl, rfl⟩
  · obtain ⟨⟨v, m'⟩, hm, rfl⟩ := hs; dsimp only; split <;> exact ⟨rfl, rfl⟩
  · obtain ⟨⟨v, m'⟩, hm, rfl⟩ := hs; exact ⟨rfl, rfl⟩
  · obtain ⟨m', hm, rfl⟩ := hs; exact ⟨rfl, rfl⟩
  · obtain ⟨⟨v, m'⟩, hm, rfl⟩ := hs; exact ⟨rfl, rfl⟩
  · obtain ⟨m', hm, rfl⟩ := hs; exact ⟨rfl, rfl⟩
  · obtain ⟨⟨v, m'⟩, hm, rfl⟩ := hs; dsimp only; split <;> exact ⟨rfl, rfl⟩
  · cases hs; exact ⟨rfl, rfl⟩

theorem ok_stepC {c : Cfg} (hg : Good c) {s s' : St} {ts : Nat} (h : Ok s) (hs : stepC c s ts = some s') : Ok s' :=
  ⟨inv_stepC hg.x hg.l hg.n h.i hs, wf_stepC h.w hs, by rw [(pc_stepC hs).1]; exact h.q⟩

/-- When no push is under way, every node but the last is linked. -/
theorem linked {s : St} (h : Ok s) (hc : ∀ x, s.c ≠ .c6 x) {j : Nat} (hj : j < s.kh) : s.lkd j = true := by
  cases hl : s.lkd j with
  | true => rfl
  | false =>
    rcases h.i.a.lkBy j hj hl with ⟨-, e⟩ | ⟨-, e, -⟩
    · exact absurd e (h.q _ _)
    · exact absurd e (hc _)

/-- The newest link of the tail. -/
theorem tail_newest {s : St} (h : Ok s) (hc : ∀ x, s.c ≠ .c6 x) :
    ∃ g, s.m.hist (.next s.tail) (s.kn s.tail) = some g ∧ g.val = if s.p < s.kh then s.seq (s.p + 1) + 1 else 0 := by
  obtain ⟨g, hg⟩ := Option.ne_none_iff_exists'.mp (h.i.b.top s.tail)
  refine ⟨g, hg, ?_⟩
  obtain ⟨p1, p2⟩ := h.i.a.pP
  rw [p2] at hg
  split
  · rename_i hl; exact h.i.b.link s.p g (Nat.le_refl _) (linked h hc hl) hg
  · exact h.i.b.null s.p g (Nat.le_refl _) p1 (h.i.a.lkEnd _ (by omega)) hg

/-- The consumer gets the node at the tail. -/
theorem solo_get {c : Cfg} (hg : Good c) {s : St} (h : Ok s) (hc : s.c = .c0 ∨ s.c = .c1 ∨ s.c = .c7) (ht : s.tail ≠ 0)
    (hl : s.p < s.kh) : ∃ s', Solo c s s' ∧ s'.c = .c0 ∧ s'.out = s.out ++ [s.tail] ∧ s'.ord = s.ord := by
  obtain ⟨g, g1, g2⟩ := tail_newest h (by intro x hx; rcases hc with e | e | e <;> rw [e] at hx <;> cases hx)
  rw [if_pos hl] at g2
  obtain ⟨m', hm⟩ := load_ok (conf := conf) h.w (h.i.b.above s.tail) g1 c.ordN 0 ⟨0, .lnk s.tail⟩
  have hv : g.val ≠ 0 := by omega
  have hs : stepC c s (s.kn s.tail) = some { s with m := m', c := .ret s.tail, tail := g.val - 1, p := s.p + 1 } := by
    rcases hc with e | e | e <;> simp [stepC, e, hm, hv, ht]
  have hs2 : stepC c { s with m := m', c := .ret s.tail, tail := g.val - 1, p := s.p + 1 } 0 =
      some { s with m := m'.touch conf 0 ⟨0, .use s.tail⟩, c := .c0, tail := g.val - 1, p := s.p + 1, out := s.out ++ [s.tail] } := rfl
  exact ⟨_, (Solo.one hs).trans (Solo.one hs2), rfl, rfl, rfl⟩

/-- The last node: the consumer pushes the stub behind it. -/
theorem solo_last {c : Cfg} (hg : Good c) {s : St} (h : Ok s) (hc : s.c = .c0 ∨ s.c = .c1) (ht : s.tail ≠ 0)
    (hl : s.p = s.kh) : ∃ s', Solo c s s' ∧ s'.c = .c7 ∧ Ok s' ∧ s'.out = s.out ∧ s'.tail = s.tail ∧ s'.p < s'.kh ∧ s'.ord = s.ord := by
  obtain ⟨g, g1, g2⟩ := tail_newest h (by intro x hx; rcases hc with e | e <;> rw [e] at hx <;> cases hx)
  rw [if_neg (by omega)] at g2
  obtain ⟨m1, hm1⟩ := load_ok (conf := conf) h.w (h.i.b.above s.tail) g1 c.ordN 0 ⟨0, .lnk s.tail⟩
  rw [g2] at hm1
  have hs1 : stepC c s (s.kn s.tail) = some { s with m := m1, c := .c3 } := by
    rcases hc with e | e <;> simp [stepC, e, hm1, ht]
  have k1 := ok_stepC hg h hs1
  generalize hs1' : { s with m := m1, c := CPC.c3 } = s1 at *
  have c1 : s1.c = .c3 := by rw [← hs1']
  have c2 : s1.tail = s.tail := by rw [← hs1']
  have c3 : s1.p = s1.kh := by rw [← hs1']; exact hl
  have c4 : s1.out = s.out := by rw [← hs1']
  have c5 : s1.ord = s.ord := by rw [← hs1']
  clear hs1' hm1
  -- the head
  obtain ⟨gh, gh1⟩ := Option.ne_none_iff_exists'.mp (k1.i.a.h1 s1.kh (Nat.le_refl _))
  have gh2 := (k1.i.a.h2 _ _ gh1).2
  have habove : ∀ {s : St}, Ok s → ∀ j, s.kh < j → s.m.hist .head j = none := fun {s} h j hj => by
    cases hx : s.m.hist .head j with
    | none => rfl
    | some g => have := (h.i.a.h2 j g hx).1; omega
  obtain ⟨m2, hm2⟩ := load_ok (conf := conf) k1.w (habove k1) gh1 c.ordH 0 ⟨0, .atom⟩
  have hv2 : gh.val = s1.tail + 1 := by rw [gh2, k1.i.a.pP.2, c3]
  have hs2 : stepC c s1 s1.kh = some { s1 with m := m2, c := .c4 } := by simp [stepC, c1, hm2, hv2]
  have k2 := ok_stepC hg k1 hs2
  generalize hs2' : { s1 with m := m2, c := CPC.c4 } = s2 at *
  have d1 : s2.c = .c4 := by rw [← hs2']
  have d2 : s2.tail = s.tail := by rw [← hs2']; exact c2
  have d3 : s2.p = s2.kh := by rw [← hs2']; exact c3
  have d4 : s2.out = s.out := by rw [← hs2']; exact c4
  have d5 : s2.ord = s.ord := by rw [← hs2']; exact c5
  clear hs2' hm2
  -- clear the link of the stub
  obtain ⟨m3, hm3⟩ := store_ok (conf := conf) (h := k2.w) (k2.i.b.above 0) c.ordZ 0 0 ⟨0, .lnk 0⟩
  have hs3 : stepC c s2 (s2.kn 0 + 1) = some { s2 with m := m3, c := .c5, kn := upd s2.kn 0 (s2.kn 0 + 1) } := by
    simp [stepC, d1, hm3]
  have k3 := ok_stepC hg k2 hs3
  generalize hs3' : { s2 with m := m3, c := CPC.c5, kn := upd s2.kn 0 (s2.kn 0 + 1) } = s3 at *
  have e1 : s3.c = .c5 := by rw [← hs3']
  have e2 : s3.tail = s.tail := by rw [← hs3']; exact d2
  have e3 : s3.p = s3.kh := by rw [← hs3']; exact d3
  have e4 : s3.out = s.out := by rw [← hs3']; exact d4
  have e5 : s3.ord = s.ord := by rw [← hs3']; exact d5
  clear hs3' hm3
  -- exchange the head
  obtain ⟨gx, gx1⟩ := Option.ne_none_iff_exists'.mp (k3.i.a.h1 s3.kh (Nat.le_refl _))
  obtain ⟨m4, hm4⟩ := rmw_ok (conf := conf) k3.w (habove k3) gx1 c.ordX 0 (fun _ => 1) ⟨0, .atom⟩
  have hs4 : stepC c s3 s3.kh = some { s3 with m := m4, c := .c6 (gx.val - 1), kh := s3.kh + 1, seq := upd s3.seq (s3.kh + 1) 0
                                               sp := s3.kh + 1 } := by
    simp [stepC, e1, hm4]
  have k4 := ok_stepC hg k3 hs4
  generalize hs4' : ({ s3 with m := m4, c := CPC.c6 (gx.val - 1), kh := s3.kh + 1, seq := upd s3.seq (s3.kh + 1) 0
                               sp := s3.kh + 1 } : St) = s4 at *
  have f1 : s4.c = .c6 (gx.val - 1) := by rw [← hs4']
  have f2 : s4.tail = s.tail := by rw [← hs4']; exact e2
  have f3 : s4.p < s4.kh := by rw [← hs4']; dsimp only; omega
  have f4 : s4.out = s.out := by rw [← hs4']; exact e4
  have f5 : s4.ord = s.ord := by rw [← hs4']; exact e5
  clear hs4' hm4
  -- link the stub
  obtain ⟨m5, hm5⟩ := store_ok (conf := conf) (h := k4.w) (k4.i.b.above (gx.val - 1)) c.ordL 0 1 ⟨0, .lnk (gx.val - 1)⟩
  have hs5 : stepC c s4 (s4.kn (gx.val - 1) + 1) = some { s4 with m := m5, c := .c7, lkd := upd s4.lkd (s4.sp - 1) true
                                                                  kn := upd s4.kn (gx.val - 1) (s4.kn (gx.val - 1) + 1) } := by
    simp [stepC, f1, hm5]
  have k5 := ok_stepC hg k4 hs5
  exact ⟨_, (((Solo.one hs1).trans (Solo.one hs2)).trans (Solo.one hs3)).trans ((Solo.one hs4).trans (Solo.one hs5)), rfl, k5, f4, f2, f3,
    f5⟩

/-- The tail is a node: the consumer gets it. -/
theorem solo_node {c : Cfg} (hg : Good c) {s : St} (h : Ok s) (hc : s.c = .c0 ∨ s.c = .c1) (ht : s.tail ≠ 0) :
    ∃ s', Solo c s s' ∧ s'.c = .c0 ∧ s'.out = s.out ++ [s.tail] ∧ s'.ord = s.ord := by
  by_cases hl : s.p < s.kh
  · exact solo_get hg h (by rcases hc with e | e <;> simp [e]) ht hl
  · obtain ⟨s1, h1, h2, h3, h4, h5, h6, h7⟩ := solo_last hg h hc ht (by have := h.i.a.pP.1; omega)
    obtain ⟨s2, g1, g2, g3, g4⟩ := solo_get hg h3 (.inr (.inr h2)) (by rw [h5]; exact ht) h6
    exact ⟨s2, h1.trans g1, g2, by rw [g3, h4, h5], by rw [g4, h7]⟩

theorem solo_next {c : Cfg} (hg : Good c) {s : St} (h : Ok s) (hc : s.c = .c0) (hne : s.out ≠ s.ord) :
    ∃ s' n, Solo c s s' ∧ s'.c = .c0 ∧ s'.out = s.out ++ [n] ∧ s'.ord = s.ord := by
  by_cases ht : s.tail = 0
  · obtain ⟨p1, p2⟩ := h.i.a.pP
    have hl : s.p < s.kh := by
      rcases Nat.lt_or_ge s.p s.kh with hl | hl
      · exact hl
      · have hpk : s.p = s.kh := by omega
        refine absurd ?_ hne
        have h1 := h.i.o.outE
        rw [hc] at h1
        simp only [isRet, if_false, Bool.false_eq_true] at h1
        rw [h1, h.i.o.ordE, nodes_succ, ← hpk, ← p2, if_pos ht, List.append_nil]
    obtain ⟨g, g1, g2⟩ := tail_newest h (by intro x hx; rw [hc] at hx; cases hx)
    rw [if_pos hl] at g2
    obtain ⟨m', hm⟩ := load_ok (conf := conf) h.w (h.i.b.above s.tail) g1 c.ordN 0 ⟨0, .lnk s.tail⟩
    have hv : g.val ≠ 0 := by omega
    have hs : stepC c s (s.kn s.tail) = some { s with m := m', c := .c1, tail := g.val - 1, p := s.p + 1 } := by
      simp only [stepC, hc, hm, Option.map_some, if_neg hv, if_pos ht]
    have k := ok_stepC hg h hs
    obtain ⟨s2, h1, h2, h3, h4⟩ := solo_node hg k (.inr rfl) (k.i.a.inn rfl)
    exact ⟨s2, _, (Solo.one hs).trans h1, h2, h3, h4⟩
  · obtain ⟨s2, h1, h2, h3, h4⟩ := solo_node hg h (.inl hc) ht
    exact ⟨s2, _, h1, h2, h3, h4⟩

theorem wf_reach {c : Cfg} {s : St} (h : Reachable c s) : s.m.Wf :=
  Reach.inv (fun s : St => s.m.Wf) (Mem.Wf.init _) (fun _ _ _ hi he => wf_step hi he) s h

/-- **C96**: no node is lost: whenever no push is under way and the consumer is about to pop, though not every pushed node has been
popped, the consumer, by itself, can pop one more (it does so if it reads the newest values). -/
theorem C96_not_lost {c : Cfg} (hg : Good c) {s : St} (h : Reachable c s) (hq : ∀ n x, s.pc n ≠ .lk x) (hc : s.c = .c0)
    (hne : s.out ≠ s.ord) : ∃ s' n, Solo c s s' ∧ s'.c = .c0 ∧ s'.out = s.out ++ [n] ∧ s'.ord = s.ord :=
  solo_next hg ⟨inv_reach hg h, wf_reach h, hq⟩ hc hne

/-- A thread that does nothing stays where it is. -/
theorem pc_step {c : Cfg} {s s' : St} {a : Nat × Nat} {n : Nat} (hs : step c s a = some s') (hn : n ≠ a.1) : s'.pc n = s.pc n := by
  unfold step at hs
  split at hs
  · rw [(pc_stepC hs).1]
  · unfold stepP at hs
    split at hs <;> try rw [Option.map_eq_some_iff] at hs
    · cases hs; exact upd_other _ _ hn
    · obtain ⟨m', hm, rfl⟩ := hs; exact upd_other _ _ hn
    · obtain ⟨⟨v, m'⟩, hm, rfl⟩ := hs; exact upd_other _ _ hn
    · obtain ⟨m', hm, rfl⟩ := hs; exact upd_other _ _ hn
    · cases hs

theorem pc_exec {c : Cfg} {n : Nat} : ∀ (l : List (Nat × Nat)) {s s' : St}, exec (step c) s l = some s' → (∀ a ∈ l, n ≠ a.1) → s'.pc n = s.pc n
  | [], s, s', h, _ => by cases h; rfl
  | a :: l, s, s', h, hn => by
    simp only [exec] at h
    split at h
    · rename_i s1 hs
      rw [pc_exec l h fun b hb => hn b (List.mem_cons_of_mem _ hb), pc_step hs (hn a List.mem_cons_self)]
    · cases h

/-- The hypotheses of `C96_not_lost` are met: one node pushed, none popped. -/
example : ∃ s, Reachable code s ∧ (∀ n x, s.pc n ≠ .lk x) ∧ s.c = .c0 ∧ s.out ≠ s.ord := by
  have key : (exec (step code) init [(1, 0), (1, 1), (1, 0), (1, 1)]).any
      (fun s : St => decide (s.pc 1 = .done ∧ s.c = .c0 ∧ s.out ≠ s.ord)) = true := by decide +kernel
  cases he : exec (step code) init [(1, 0), (1, 1), (1, 0), (1, 1)] with
  | none => rw [he] at key; cases key
  | some s =>
    rw [he] at key
    obtain ⟨h1, h2, h3⟩ := of_decide_eq_true key
    refine ⟨s, Reach.of_exec _ he, fun n x => ?_, h2, h3⟩
    by_cases hn : n = 1
    · subst hn; rw [h1]; simp
    · rw [pc_exec _ he (by simpa using hn)]; simp [init]

end Verif.WmMpsc
