import Verif.WmAwait.Model
import Verif.WM.Lemmas
import Verif.WM.Wf
/-!
# Awaiting a sender under the C++ memory model — theorems (C97)
-/
namespace Verif.WmAwait

open Verif.WM

/-- Control (`r`: the operation completes on thread 2). -/
structure Ctl (r : Bool) (s : St) : Prop where
  r1 : r = true → s.pc ≠ .resume ∧ s.pc ≠ .fin ∧ s.d ≠ .clear
  r2 : r = true → s.d = .resume ∨ s.d = .fin → s.pc = .susp
  r3 : r = true → s.d ≠ .idle → s.spawned = true
  r4 : s.spawned = true → s.pc ≠ .idle
  l1 : r = false → s.pc = .idle → s.d = .idle
  l2 : r = false → s.pc = .start → s.d ≠ .exch ∧ s.d ≠ .resume
  l3 : r = false → s.pc = .exch → s.d = .idle ∨ s.d = .fin
  l4 : r = false → s.pc = .resume ∨ s.pc = .fin → s.d = .fin
  l5 : r = false → s.pc = .susp → s.d ≠ .clear
  l6 : r = false → s.d ≠ .spin
  cnt : s.resumed = (if s.pc = .fin then 1 else 0) + if s.d = .fin ∧ s.pc = .susp then 1 else 0
  r5 : r = true → s.pc ≠ .idle → s.pc ≠ .start → s.spawned = true

/-- The id. -/
structure Idv (r : Bool) (s : St) : Prop where
  above : ∀ j, s.k < j → s.m.hist .tid j = none
  top : s.m.hist .tid s.k ≠ none
  gap : r = true → ∀ j, j ≤ s.k → s.m.hist .tid j ≠ none
  loc : r = false → (s.m.cur 1).seen .tid = s.k
  vs : ∀ j g, s.m.hist .tid j = some g → g.view.seen .tid ≤ s.k
  a1 : ∀ g, r = true → s.m.hist .tid s.k = some g → s.pc ≠ .susp → s.d ≠ .spin → g.val = 1
  a2 : ∀ g, r = true → s.m.hist .tid s.k = some g → s.pc ≠ .susp → s.d = .spin → g.val = 2
  a3 : ∀ g, r = true → s.m.hist .tid s.k = some g → s.pc = .susp → s.d ≠ .resume → s.d ≠ .fin → g.val = 0
  a4 : ∀ j g, r = true → s.d = .spin → j ≠ s.k → s.m.hist .tid j = some g → (s.m.cur 2).seen .tid ≤ j → g.val ≠ 0
  a5 : ∀ j g, r = true → s.d = .idle ∨ s.d = .load → s.m.hist .tid j = some g → g.val ≠ 2
  b1 : ∀ g, r = false → s.m.hist .tid s.k = some g → s.pc ≠ .susp → s.d ≠ .fin → g.val = 1
  b2 : ∀ g, r = false → s.m.hist .tid s.k = some g → s.pc ≠ .susp → s.d = .fin → g.val = 0
  b3 : ∀ g, r = false → s.m.hist .tid s.k = some g → s.pc = .susp → s.d ≠ .resume → s.d ≠ .fin → g.val = 0

/-- Knowledge. -/
structure Kn (r : Bool) (s : St) : Prop where
  own : ∀ i b, s.m.logged i b → (s.m.cur b.who).know i = true
  who0 : ∀ i b, r = false → s.m.logged i b → b.who = 1
  who1 : ∀ i b, r = true → s.m.logged i b → b.who = 1 ∨ b.who = 2
  what2 : ∀ i b, r = true → s.m.logged i b → b.who = 2 → b.what ≠ .make ∧ b.what ≠ .frame
  what1 : ∀ i b, r = true → s.m.logged i b → b.who = 1 → b.what ≠ .result ∧ b.what ≠ .resume
  none : ∀ i b, s.m.logged i b → s.pc ≠ .idle
  res : ∀ i b, s.m.logged i b → b.what = .result → s.d ≠ .idle
  rsm : ∀ i b, s.m.logged i b → b.what = .resume → (s.pc = .fin ∨ (s.d = .fin ∧ s.pc = .susp))
  mkk : ∀ i b, r = true → s.spawned = true → s.m.logged i b → b.what = .make → (s.m.cur 2).know i = true
  kx : ∀ g i b, r = true → s.pc = .susp → s.d ≠ .resume → s.d ≠ .fin → s.m.hist .tid s.k = some g → s.m.logged i b → b.who = 1 →
    g.view.know i = true
  kr : ∀ i b, r = true → s.d = .resume → s.m.logged i b → b.who = 1 → (s.m.cur 2).know i = true
  last : ∀ i j a b, s.m.logged i a → s.m.logged j b → a.what = .resume → j ≤ i

structure Inv (r : Bool) (s : St) : Prop where
  c : Ctl r s
  v : Idv r s
  k : Kn r s
  noRace : s.m.race = false

theorem inv_init (r : Bool) : Inv r init := by
  refine ⟨?_, ?_, ?_, rfl⟩
  · constructor <;> simp (config := { contextual := true }) [init]
  · constructor <;> simp (config := { contextual := true }) [init, Mem.init, View.bot]
    all_goals grind
  · constructor <;> simp (config := { contextual := true }) [init, Mem.init, Mem.logged]

set_option maxHeartbeats 4000000 in
theorem i_make {r : Bool} {s : St} (h : Inv r s) (hp : s.pc = .idle) : Inv r { acc s 1 .make with pc := .start } := by
  obtain ⟨c1, c2, c3, c4, c5, c6, c7, c8, c9, c10, c11, c12⟩ := h.c
  obtain ⟨v1, v2, v3, v4, v5, v6, v7, v8, v9, v10, v11, v12, v13⟩ := h.v
  obtain ⟨k1, k2, k3, k4, k5, k6, k7, k8, k9, k10, k11, k12⟩ := h.k
  have hq : s.m.racy conf 1 ⟨1, .make⟩ = false := by
    rw [racy_false]; intro i b hi hc
    have hown := k1 i b hi
    exact absurd hp (k6 i b hi)
  obtain ⟨t1, t2, t3, t4, t5, t6⟩ := touch_spec conf s.m (1) ⟨1, .make⟩
  have hlog := fun k b => logged_snoc t2 k b
  have hlt := logged_lt s.m
  have hr : (s.m.touch conf (1) ⟨1, .make⟩).race = false := by rw [t3, h.noRace, hq]; rfl
  clear h
  simp only [acc]
  generalize s.m.touch conf (1) ⟨1, .make⟩ = m' at *
  have hh : ∀ l j, m'.hist l j = s.m.hist l j := fun l j => by rw [t1]
  have mono : ∀ u i, (s.m.cur u).know i = true → (m'.cur u).know i = true := fun u i hk => by
    by_cases hu : u = 1
    · rw [hu] at hk ⊢; rw [t5, hk]; rfl
    · rw [t4 u hu]; exact hk
  have hself : (m'.cur (1)).know s.m.log.length = true := by rw [t5]; simp
  have hsn : ∀ u x, (m'.cur u).seen x = (s.m.cur u).seen x := fun u x => by
    by_cases hu : u = 1
    · rw [hu, t6]
    · rw [t4 u hu]
  clear t1 t2 t3 t4 t5 t6 hq
  refine ⟨?_, ?_, ?_, hr⟩
  · constructor <;> (try dsimp only) <;> first | assumption | grind
  · constructor <;> (try dsimp only) <;> first | assumption | grind
  · constructor <;> (try dsimp only) <;> first | assumption | grind

set_option maxHeartbeats 4000000 in
theorem i_go {r : Bool} {s : St} (h : Inv r s) (hp : s.pc = .start) (hb : r = false → s.d = .idle ∨ s.d = .fin) (hb2 : r = true → s.spawned = true) : Inv r { s with pc := .exch } := by
  obtain ⟨c1, c2, c3, c4, c5, c6, c7, c8, c9, c10, c11, c12⟩ := h.c
  obtain ⟨v1, v2, v3, v4, v5, v6, v7, v8, v9, v10, v11, v12, v13⟩ := h.v
  obtain ⟨k1, k2, k3, k4, k5, k6, k7, k8, k9, k10, k11, k12⟩ := h.k
  have hr := h.noRace
  clear h
  refine ⟨?_, ?_, ?_, hr⟩
  · constructor <;> (try dsimp only) <;> first | assumption | grind
  · constructor <;> (try dsimp only) <;> first | assumption | grind
  · constructor <;> (try dsimp only) <;> first | assumption | grind

set_option maxHeartbeats 4000000 in
theorem i_work {r : Bool} {s : St} (h : Inv r s) (hp : s.pc = .start) : Inv r (acc s 1 .frame) := by
  obtain ⟨c1, c2, c3, c4, c5, c6, c7, c8, c9, c10, c11, c12⟩ := h.c
  obtain ⟨v1, v2, v3, v4, v5, v6, v7, v8, v9, v10, v11, v12, v13⟩ := h.v
  obtain ⟨k1, k2, k3, k4, k5, k6, k7, k8, k9, k10, k11, k12⟩ := h.k
  have hq : s.m.racy conf 1 ⟨1, .frame⟩ = false := by
    rw [racy_false]; intro i b hi hc
    have hown := k1 i b hi
    obtain ⟨w, b⟩ := b
    have e2 := fun e => k2 i _ e hi
    have e3 := fun e => k3 i _ e hi
    have e4 := fun e => k4 i _ e hi
    have e5 := fun e => k5 i _ e hi
    have e6 := k6 i _ hi
    have e7 := k7 i _ hi
    have e8 := k8 i _ hi
    have e9 := fun e e' => k9 i _ e e' hi
    cases b <;> first | (revert hc; simp [conf]; done) | (dsimp only at *; cases r <;> grind)
  obtain ⟨t1, t2, t3, t4, t5, t6⟩ := touch_spec conf s.m (1) ⟨1, .frame⟩
  have hlog := fun k b => logged_snoc t2 k b
  have hlt := logged_lt s.m
  have hr : (s.m.touch conf (1) ⟨1, .frame⟩).race = false := by rw [t3, h.noRace, hq]; rfl
  clear h
  simp only [acc]
  generalize s.m.touch conf (1) ⟨1, .frame⟩ = m' at *
  have hh : ∀ l j, m'.hist l j = s.m.hist l j := fun l j => by rw [t1]
  have mono : ∀ u i, (s.m.cur u).know i = true → (m'.cur u).know i = true := fun u i hk => by
    by_cases hu : u = 1
    · rw [hu] at hk ⊢; rw [t5, hk]; rfl
    · rw [t4 u hu]; exact hk
  have hself : (m'.cur (1)).know s.m.log.length = true := by rw [t5]; simp
  have hsn : ∀ u x, (m'.cur u).seen x = (s.m.cur u).seen x := fun u x => by
    by_cases hu : u = 1
    · rw [hu, t6]
    · rw [t4 u hu]
  clear t1 t2 t3 t4 t5 t6 hq
  refine ⟨?_, ?_, ?_, hr⟩
  · constructor <;> (try dsimp only) <;> first | assumption | grind
  · constructor <;> (try dsimp only) <;> first | assumption | grind
  · constructor <;> (try dsimp only) <;> first | assumption | grind

set_option maxHeartbeats 4000000 in
theorem i_xch {r : Bool} {s : St} (h : Inv r s) {o : Ord} {ts v : Nat} {m' : Mem Loc Acc} (ho : o.isRel = true) (hp : s.pc = .exch) (hm : s.m.rmw conf o 1 .tid ts (fun _ => 0) ⟨1, .atom⟩ = some (v, m')) : Inv r { s with m := m', k := ts + 1, pc := if v = 0 then .resume else .susp } := by
  obtain ⟨c1, c2, c3, c4, c5, c6, c7, c8, c9, c10, c11, c12⟩ := h.c
  obtain ⟨v1, v2, v3, v4, v5, v6, v7, v8, v9, v10, v11, v12, v13⟩ := h.v
  obtain ⟨k1, k2, k3, k4, k5, k6, k7, k8, k9, k10, k11, k12⟩ := h.k
  have hq : s.m.racy conf 1 ⟨1, .atom⟩ = false := by
    rw [racy_false]; intro i b hi hc
    have hown := k1 i b hi
    obtain ⟨w, b⟩ := b
    have e2 := fun e => k2 i _ e hi
    have e3 := fun e => k3 i _ e hi
    have e4 := fun e => k4 i _ e hi
    have e5 := fun e => k5 i _ e hi
    have e6 := k6 i _ hi
    have e7 := k7 i _ hi
    have e8 := k8 i _ hi
    have e9 := fun e e' => k9 i _ e e' hi
    cases b <;> first | (revert hc; simp [conf]; done) | (dsimp only at *; cases r <;> grind)
  obtain ⟨g, t1, t2, t3, t4, t5, t6, t7, t8, t9, t10, g', t11, t12, t13, t14⟩ := rmw_spec hm
  have hts : ts = s.k := by
    have h1 : ts ≤ s.k := by
      rcases Nat.lt_or_ge s.k ts with hl | hl
      · rw [v1 _ hl] at t1; cases t1
      · exact hl
    cases r with
    | true =>
      rcases Nat.lt_or_eq_of_le h1 with hl | hl
      · exact absurd t4 (v3 rfl (ts + 1) hl)
      · exact hl
    | false => have := v4 rfl; omega
  subst hts
  have hlog := fun k b => logged_snoc t5 k b
  have hlt := logged_lt s.m
  have hr : m'.race = false := by rw [t6, h.noRace, hq]; rfl
  clear h
  have mono : ∀ u i, (s.m.cur u).know i = true → (m'.cur u).know i = true := fun u i hk => by
    by_cases hu : u = 1
    · rw [hu] at hk ⊢; rw [t8, hk]; rfl
    · rw [t7 u hu]; exact hk
  have hself : (m'.cur (1)).know s.m.log.length = true := by rw [t8]; simp
  have hacq : o.isAcq = true → ∀ k, g.view.know k = true → (m'.cur (1)).know k = true := fun ho k hk => by rw [t8, hk, ho]; simp
  have hrel : o.isRel = true → ∀ k, (m'.cur (1)).know k = true → g'.view.know k = true := fun ho k hk => by rw [t13, hk, ho]; simp
  have hgs0 := v5 _ _ t1
  have hsn4 : (m'.cur (1)).seen .tid = s.k + 1 := by rw [t9]; simp; split <;> omega
  have hgs : g'.view.seen .tid ≤ s.k + 1 := by rw [t14]; simp; split <;> omega
  have hsn5 : ∀ u, u ≠ 1 → (m'.cur u).seen .tid = (s.m.cur u).seen .tid := fun u hu => by rw [t7 u hu]
  have hf : ∀ j, j ≠ s.k + 1 → m'.hist .tid j = s.m.hist .tid j := fun j hj => t10 _ _ (fun e => hj e.2)
  clear t5 t6 t7 t8 t9 t10 t13 t14 hm hq
  have hv : r = true → v ≠ 0 := fun hr => by
    have q1 := v6 _ hr t1
    have q2 := v7 _ hr t1
    by_cases hd : s.d = .spin <;> grind
  refine ⟨?_, ?_, ?_, hr⟩
  · constructor <;> (try dsimp only) <;> first | assumption | grind
  · constructor <;> (try dsimp only) <;> first | assumption | grind
  · constructor <;> (try dsimp only) <;> first | assumption | grind

set_option maxHeartbeats 4000000 in
theorem i_rsm {r : Bool} {s : St} (h : Inv r s) (hp : s.pc = .resume) : Inv r { acc s 1 .resume with pc := .fin, resumed := s.resumed + 1 } := by
  obtain ⟨c1, c2, c3, c4, c5, c6, c7, c8, c9, c10, c11, c12⟩ := h.c
  obtain ⟨v1, v2, v3, v4, v5, v6, v7, v8, v9, v10, v11, v12, v13⟩ := h.v
  obtain ⟨k1, k2, k3, k4, k5, k6, k7, k8, k9, k10, k11, k12⟩ := h.k
  have hq : s.m.racy conf 1 ⟨1, .resume⟩ = false := by
    rw [racy_false]; intro i b hi hc
    have hown := k1 i b hi
    grind
  obtain ⟨t1, t2, t3, t4, t5, t6⟩ := touch_spec conf s.m (1) ⟨1, .resume⟩
  have hlog := fun k b => logged_snoc t2 k b
  have hlt := logged_lt s.m
  have hr : (s.m.touch conf (1) ⟨1, .resume⟩).race = false := by rw [t3, h.noRace, hq]; rfl
  clear h
  simp only [acc]
  generalize s.m.touch conf (1) ⟨1, .resume⟩ = m' at *
  have hh : ∀ l j, m'.hist l j = s.m.hist l j := fun l j => by rw [t1]
  have mono : ∀ u i, (s.m.cur u).know i = true → (m'.cur u).know i = true := fun u i hk => by
    by_cases hu : u = 1
    · rw [hu] at hk ⊢; rw [t5, hk]; rfl
    · rw [t4 u hu]; exact hk
  have hself : (m'.cur (1)).know s.m.log.length = true := by rw [t5]; simp
  have hsn : ∀ u x, (m'.cur u).seen x = (s.m.cur u).seen x := fun u x => by
    by_cases hu : u = 1
    · rw [hu, t6]
    · rw [t4 u hu]
  clear t1 t2 t3 t4 t5 t6 hq
  refine ⟨?_, ?_, ?_, hr⟩
  · constructor <;> (try dsimp only) <;> first | assumption | grind
  · constructor <;> (try dsimp only) <;> first | assumption | grind
  · constructor <;> (try dsimp only) <;> first | assumption | grind

set_option maxHeartbeats 4000000 in
theorem i_res {r : Bool} {s : St} (h : Inv r s) {t : Nat} (ht : t = if r then 2 else 1) (hp : s.d = .idle) (hmay : if r then s.spawned = true else s.pc = .start ∨ s.pc = .susp) : Inv r { acc s t .result with d := .load } := by
  obtain ⟨c1, c2, c3, c4, c5, c6, c7, c8, c9, c10, c11, c12⟩ := h.c
  obtain ⟨v1, v2, v3, v4, v5, v6, v7, v8, v9, v10, v11, v12, v13⟩ := h.v
  obtain ⟨k1, k2, k3, k4, k5, k6, k7, k8, k9, k10, k11, k12⟩ := h.k
  have hq : s.m.racy conf t ⟨t, .result⟩ = false := by
    rw [racy_false]; intro i b hi hc
    have hown := k1 i b hi
    obtain ⟨w, b⟩ := b
    have e2 := fun e => k2 i _ e hi
    have e3 := fun e => k3 i _ e hi
    have e4 := fun e => k4 i _ e hi
    have e5 := fun e => k5 i _ e hi
    have e6 := k6 i _ hi
    have e7 := k7 i _ hi
    have e8 := k8 i _ hi
    have e9 := fun e e' => k9 i _ e e' hi
    cases b <;> first | (revert hc; simp [conf]; done) | (dsimp only at *; cases r <;> grind)
  obtain ⟨t1, t2, t3, t4, t5, t6⟩ := touch_spec conf s.m (t) ⟨t, .result⟩
  have hlog := fun k b => logged_snoc t2 k b
  have hlt := logged_lt s.m
  have hr : (s.m.touch conf (t) ⟨t, .result⟩).race = false := by rw [t3, h.noRace, hq]; rfl
  clear h
  simp only [acc]
  generalize s.m.touch conf (t) ⟨t, .result⟩ = m' at *
  have hh : ∀ l j, m'.hist l j = s.m.hist l j := fun l j => by rw [t1]
  have mono : ∀ u i, (s.m.cur u).know i = true → (m'.cur u).know i = true := fun u i hk => by
    by_cases hu : u = t
    · rw [hu] at hk ⊢; rw [t5, hk]; rfl
    · rw [t4 u hu]; exact hk
  have hself : (m'.cur (t)).know s.m.log.length = true := by rw [t5]; simp
  have hsn : ∀ u x, (m'.cur u).seen x = (s.m.cur u).seen x := fun u x => by
    by_cases hu : u = t
    · rw [hu, t6]
    · rw [t4 u hu]
  clear t1 t2 t3 t4 t5 t6 hq
  refine ⟨?_, ?_, ?_, hr⟩
  · constructor <;> (try dsimp only) <;> first | assumption | grind
  · constructor <;> (try dsimp only) <;> first | assumption | grind
  · constructor <;> (try dsimp only) <;> first | assumption | grind

set_option maxHeartbeats 4000000 in
theorem i_ld {r : Bool} {s : St} (h : Inv r s) {t ts v : Nat} {o : Ord} {m' : Mem Loc Acc} (ht : t = if r then 2 else 1) (hp : s.d = .load) (hm : s.m.load conf o t .tid ts ⟨t, .atom⟩ = some (v, m')) : Inv r { s with m := m', d := if v = t then .clear else .exch } := by
  obtain ⟨c1, c2, c3, c4, c5, c6, c7, c8, c9, c10, c11, c12⟩ := h.c
  obtain ⟨v1, v2, v3, v4, v5, v6, v7, v8, v9, v10, v11, v12, v13⟩ := h.v
  obtain ⟨k1, k2, k3, k4, k5, k6, k7, k8, k9, k10, k11, k12⟩ := h.k
  have hq : s.m.racy conf t ⟨t, .atom⟩ = false := by
    rw [racy_false]; intro i b hi hc
    have hown := k1 i b hi
    obtain ⟨w, b⟩ := b
    have e2 := fun e => k2 i _ e hi
    have e3 := fun e => k3 i _ e hi
    have e4 := fun e => k4 i _ e hi
    have e5 := fun e => k5 i _ e hi
    have e6 := k6 i _ hi
    have e7 := k7 i _ hi
    have e8 := k8 i _ hi
    have e9 := fun e e' => k9 i _ e e' hi
    cases b <;> first | (revert hc; simp [conf]; done) | (dsimp only at *; cases r <;> grind)
  obtain ⟨g, t1, t2, t3, t4, t5, t6, t7, t8, t9⟩ := load_spec hm
  have hlog := fun k b => logged_snoc t5 k b
  have hlt := logged_lt s.m
  have hr : m'.race = false := by rw [t6, h.noRace, hq]; rfl
  clear h
  have hh : ∀ l j, m'.hist l j = s.m.hist l j := fun l j => by rw [t4]
  have mono : ∀ u i, (s.m.cur u).know i = true → (m'.cur u).know i = true := fun u i hk => by
    by_cases hu : u = t
    · rw [hu] at hk ⊢; rw [t8, hk]; rfl
    · rw [t7 u hu]; exact hk
  have hself : (m'.cur (t)).know s.m.log.length = true := by rw [t8]; simp
  have hacq : o.isAcq = true → ∀ k, g.view.know k = true → (m'.cur t).know k = true := fun ho k hk => by rw [t8, ho, hk]; simp
  have hgs := v5 _ _ t1
  have hsn : ∀ u, (s.m.cur u).seen .tid ≤ (m'.cur u).seen .tid := fun u => by
    by_cases hu : u = t
    · rw [hu, t9]; simp; omega
    · rw [t7 u hu]; exact Nat.le_refl _
  have hsn2 : ts ≤ (m'.cur t).seen .tid := by rw [t9]; simp; omega
  have hts : ts ≤ s.k := by
    rcases Nat.lt_or_ge s.k ts with hl | hl
    · rw [v1 _ hl] at t1; cases t1
    · exact hl
  have hsn3 : (m'.cur t).seen .tid ≤ s.k := by rw [t9]; simp; split <;> omega
  clear t4 t5 t6 t7 t8 t9 hm hq
  refine ⟨?_, ?_, ?_, hr⟩
  · constructor <;> (try dsimp only) <;> first | assumption | grind
  · constructor <;> (try dsimp only) <;> first | assumption | grind
  · constructor <;> (try dsimp only) <;> first | assumption | grind

set_option maxHeartbeats 4000000 in
theorem i_clr {r : Bool} {s : St} (h : Inv r s) {t ts : Nat} {o : Ord} {m' : Mem Loc Acc} (ht : t = if r then 2 else 1) (hp : s.d = .clear) (hm : s.m.store conf o t .tid ts 0 ⟨t, .atom⟩ = some m') : Inv r { s with m := m', k := ts, d := .fin } := by
  obtain ⟨c1, c2, c3, c4, c5, c6, c7, c8, c9, c10, c11, c12⟩ := h.c
  obtain ⟨v1, v2, v3, v4, v5, v6, v7, v8, v9, v10, v11, v12, v13⟩ := h.v
  obtain ⟨k1, k2, k3, k4, k5, k6, k7, k8, k9, k10, k11, k12⟩ := h.k
  have hq : s.m.racy conf t ⟨t, .atom⟩ = false := by
    rw [racy_false]; intro i b hi hc
    have hown := k1 i b hi
    obtain ⟨w, b⟩ := b
    have e2 := fun e => k2 i _ e hi
    have e3 := fun e => k3 i _ e hi
    have e4 := fun e => k4 i _ e hi
    have e5 := fun e => k5 i _ e hi
    have e6 := k6 i _ hi
    have e7 := k7 i _ hi
    have e8 := k8 i _ hi
    have e9 := fun e e' => k9 i _ e e' hi
    cases b <;> first | (revert hc; simp [conf]; done) | (dsimp only at *; cases r <;> grind)
  obtain ⟨t1, t2, t3, t4, t5, t6, t7, t8, g', t9, t10, t11, t12⟩ := store_spec hm
  have hlog := fun k b => logged_snoc t3 k b
  have hlt := logged_lt s.m
  have hr : m'.race = false := by rw [t4, h.noRace, hq]; rfl
  clear h
  have mono : ∀ u i, (s.m.cur u).know i = true → (m'.cur u).know i = true := fun u i hk => by
    by_cases hu : u = t
    · rw [hu] at hk ⊢; rw [t6, hk]; rfl
    · rw [t5 u hu]; exact hk
  have hself : (m'.cur (t)).know s.m.log.length = true := by rw [t6]; simp
  have hsn2 := t7 .tid
  simp only [if_true] at hsn2
  have hgs : g'.view.seen .tid ≤ ts := by rw [t12]; simp [hsn2]
  have hf : ∀ j, j ≠ ts → m'.hist .tid j = s.m.hist .tid j := fun j hj => t8 _ _ (fun e => hj e.2)
  clear t3 t4 t5 t6 t7 t8 t11 t12 hm hq
  refine ⟨?_, ?_, ?_, hr⟩
  · constructor <;> (try dsimp only) <;> first | assumption | grind
  · constructor <;> (try dsimp only) <;> first | assumption | grind
  · constructor <;> (try dsimp only) <;> first | assumption | grind

set_option maxHeartbeats 4000000 in
theorem i_xd {r : Bool} {s : St} (h : Inv r s) {t ts v : Nat} {o : Ord} {m' : Mem Loc Acc} (ht : t = if r then 2 else 1) (ho : o.isAcq = true) (hp : s.d = .exch) (hm : s.m.rmw conf o t .tid ts (fun _ => t) ⟨t, .atom⟩ = some (v, m')) : Inv r { s with m := m', k := ts + 1, d := if v = 0 then .resume else .spin } := by
  obtain ⟨c1, c2, c3, c4, c5, c6, c7, c8, c9, c10, c11, c12⟩ := h.c
  obtain ⟨v1, v2, v3, v4, v5, v6, v7, v8, v9, v10, v11, v12, v13⟩ := h.v
  obtain ⟨k1, k2, k3, k4, k5, k6, k7, k8, k9, k10, k11, k12⟩ := h.k
  have hq : s.m.racy conf t ⟨t, .atom⟩ = false := by
    rw [racy_false]; intro i b hi hc
    have hown := k1 i b hi
    obtain ⟨w, b⟩ := b
    have e2 := fun e => k2 i _ e hi
    have e3 := fun e => k3 i _ e hi
    have e4 := fun e => k4 i _ e hi
    have e5 := fun e => k5 i _ e hi
    have e6 := k6 i _ hi
    have e7 := k7 i _ hi
    have e8 := k8 i _ hi
    have e9 := fun e e' => k9 i _ e e' hi
    cases b <;> first | (revert hc; simp [conf]; done) | (dsimp only at *; cases r <;> grind)
  obtain ⟨g, t1, t2, t3, t4, t5, t6, t7, t8, t9, t10, g', t11, t12, t13, t14⟩ := rmw_spec hm
  have hts : ts = s.k := by
    have h1 : ts ≤ s.k := by
      rcases Nat.lt_or_ge s.k ts with hl | hl
      · rw [v1 _ hl] at t1; cases t1
      · exact hl
    cases r with
    | true =>
      rcases Nat.lt_or_eq_of_le h1 with hl | hl
      · exact absurd t4 (v3 rfl (ts + 1) hl)
      · exact hl
    | false => have := v4 rfl; simp only [Bool.false_eq_true, if_false] at ht; subst ht; omega
  subst hts
  have hlog := fun k b => logged_snoc t5 k b
  have hlt := logged_lt s.m
  have hr : m'.race = false := by rw [t6, h.noRace, hq]; rfl
  clear h
  have mono : ∀ u i, (s.m.cur u).know i = true → (m'.cur u).know i = true := fun u i hk => by
    by_cases hu : u = t
    · rw [hu] at hk ⊢; rw [t8, hk]; rfl
    · rw [t7 u hu]; exact hk
  have hself : (m'.cur (t)).know s.m.log.length = true := by rw [t8]; simp
  have hacq : o.isAcq = true → ∀ k, g.view.know k = true → (m'.cur (t)).know k = true := fun ho k hk => by rw [t8, hk, ho]; simp
  have hrel : o.isRel = true → ∀ k, (m'.cur (t)).know k = true → g'.view.know k = true := fun ho k hk => by rw [t13, hk, ho]; simp
  have hgs0 := v5 _ _ t1
  have hsn4 : (m'.cur (t)).seen .tid = s.k + 1 := by rw [t9]; simp; split <;> omega
  have hgs : g'.view.seen .tid ≤ s.k + 1 := by rw [t14]; simp; split <;> omega
  have hsn5 : ∀ u, u ≠ t → (m'.cur u).seen .tid = (s.m.cur u).seen .tid := fun u hu => by rw [t7 u hu]
  have hf : ∀ j, j ≠ s.k + 1 → m'.hist .tid j = s.m.hist .tid j := fun j hj => t10 _ _ (fun e => hj e.2)
  clear t5 t6 t7 t8 t9 t10 t13 t14 hm hq
  have hv : r = false → v = 0 := fun hr => by
    have q1 := v13 _ hr t1
    have hsu : s.pc = .susp := by cases hpc : s.pc <;> simp_all
    grind
  refine ⟨?_, ?_, ?_, hr⟩
  · constructor <;> (try dsimp only) <;> first | assumption | grind
  · constructor <;> (try dsimp only) <;> first | assumption | grind
  · constructor <;> (try dsimp only) <;> first | assumption | grind

set_option maxHeartbeats 4000000 in
theorem i_sp {r : Bool} {s : St} (h : Inv r s) {t ts v : Nat} {o : Ord} {m' : Mem Loc Acc} (ht : t = if r then 2 else 1) (ho : o.isAcq = true) (hp : s.d = .spin) (hm : s.m.load conf o t .tid ts ⟨t, .atom⟩ = some (v, m')) : Inv r { s with m := m', d := if v = 0 then .resume else .spin } := by
  obtain ⟨c1, c2, c3, c4, c5, c6, c7, c8, c9, c10, c11, c12⟩ := h.c
  obtain ⟨v1, v2, v3, v4, v5, v6, v7, v8, v9, v10, v11, v12, v13⟩ := h.v
  obtain ⟨k1, k2, k3, k4, k5, k6, k7, k8, k9, k10, k11, k12⟩ := h.k
  have hq : s.m.racy conf t ⟨t, .atom⟩ = false := by
    rw [racy_false]; intro i b hi hc
    have hown := k1 i b hi
    obtain ⟨w, b⟩ := b
    have e2 := fun e => k2 i _ e hi
    have e3 := fun e => k3 i _ e hi
    have e4 := fun e => k4 i _ e hi
    have e5 := fun e => k5 i _ e hi
    have e6 := k6 i _ hi
    have e7 := k7 i _ hi
    have e8 := k8 i _ hi
    have e9 := fun e e' => k9 i _ e e' hi
    cases b <;> first | (revert hc; simp [conf]; done) | (dsimp only at *; cases r <;> grind)
  obtain ⟨g, t1, t2, t3, t4, t5, t6, t7, t8, t9⟩ := load_spec hm
  have hlog := fun k b => logged_snoc t5 k b
  have hlt := logged_lt s.m
  have hr : m'.race = false := by rw [t6, h.noRace, hq]; rfl
  clear h
  have hh : ∀ l j, m'.hist l j = s.m.hist l j := fun l j => by rw [t4]
  have mono : ∀ u i, (s.m.cur u).know i = true → (m'.cur u).know i = true := fun u i hk => by
    by_cases hu : u = t
    · rw [hu] at hk ⊢; rw [t8, hk]; rfl
    · rw [t7 u hu]; exact hk
  have hself : (m'.cur (t)).know s.m.log.length = true := by rw [t8]; simp
  have hacq : o.isAcq = true → ∀ k, g.view.know k = true → (m'.cur t).know k = true := fun ho k hk => by rw [t8, ho, hk]; simp
  have hgs := v5 _ _ t1
  have hsn : ∀ u, (s.m.cur u).seen .tid ≤ (m'.cur u).seen .tid := fun u => by
    by_cases hu : u = t
    · rw [hu, t9]; simp; omega
    · rw [t7 u hu]; exact Nat.le_refl _
  have hsn2 : ts ≤ (m'.cur t).seen .tid := by rw [t9]; simp; omega
  have hts : ts ≤ s.k := by
    rcases Nat.lt_or_ge s.k ts with hl | hl
    · rw [v1 _ hl] at t1; cases t1
    · exact hl
  have hsn3 : (m'.cur t).seen .tid ≤ s.k := by rw [t9]; simp; split <;> omega
  clear t4 t5 t6 t7 t8 t9 hm hq
  refine ⟨?_, ?_, ?_, hr⟩
  · constructor <;> (try dsimp only) <;> first | assumption | grind
  · constructor <;> (try dsimp only) <;> first | assumption | grind
  · constructor <;> (try dsimp only) <;> first | assumption | grind

set_option maxHeartbeats 4000000 in
theorem i_rd {r : Bool} {s : St} (h : Inv r s) {t : Nat} (ht : t = if r then 2 else 1) (hp : s.d = .resume) : Inv r { acc s t .resume with d := .fin, resumed := s.resumed + 1 } := by
  obtain ⟨c1, c2, c3, c4, c5, c6, c7, c8, c9, c10, c11, c12⟩ := h.c
  obtain ⟨v1, v2, v3, v4, v5, v6, v7, v8, v9, v10, v11, v12, v13⟩ := h.v
  obtain ⟨k1, k2, k3, k4, k5, k6, k7, k8, k9, k10, k11, k12⟩ := h.k
  have hsu : s.pc = .susp := by cases hpc : s.pc <;> cases r <;> simp_all
  have hq : s.m.racy conf t ⟨t, .resume⟩ = false := by
    rw [racy_false]; intro i b hi hc
    have hown := k1 i b hi
    have e2 := fun e => k2 i _ e hi
    have e3 := fun e => k3 i _ e hi
    cases r <;> grind
  obtain ⟨t1, t2, t3, t4, t5, t6⟩ := touch_spec conf s.m (t) ⟨t, .resume⟩
  have hlog := fun k b => logged_snoc t2 k b
  have hlt := logged_lt s.m
  have hr : (s.m.touch conf (t) ⟨t, .resume⟩).race = false := by rw [t3, h.noRace, hq]; rfl
  clear h
  simp only [acc]
  generalize s.m.touch conf (t) ⟨t, .resume⟩ = m' at *
  have hh : ∀ l j, m'.hist l j = s.m.hist l j := fun l j => by rw [t1]
  have mono : ∀ u i, (s.m.cur u).know i = true → (m'.cur u).know i = true := fun u i hk => by
    by_cases hu : u = t
    · rw [hu] at hk ⊢; rw [t5, hk]; rfl
    · rw [t4 u hu]; exact hk
  have hself : (m'.cur (t)).know s.m.log.length = true := by rw [t5]; simp
  have hsn : ∀ u x, (m'.cur u).seen x = (s.m.cur u).seen x := fun u x => by
    by_cases hu : u = t
    · rw [hu, t6]
    · rw [t4 u hu]
  clear t1 t2 t3 t4 t5 t6 hq
  refine ⟨?_, ?_, ?_, hr⟩
  · constructor <;> (try dsimp only) <;> first | assumption | grind
  · constructor <;> (try dsimp only) <;> first | assumption | grind
  · constructor <;> (try dsimp only) <;> first | assumption | grind

set_option maxHeartbeats 4000000 in
theorem i_spawn {s : St} (h : Inv true s) (hp : s.pc = .start) (hs : s.spawned = false) :
    Inv true { s with spawned := true, m := s.m.adopt 2 (s.m.cur 1) } := by
  obtain ⟨c1, c2, c3, c4, c5, c6, c7, c8, c9, c10, c11, c12⟩ := h.c
  obtain ⟨v1, v2, v3, v4, v5, v6, v7, v8, v9, v10, v11, v12, v13⟩ := h.v
  obtain ⟨k1, k2, k3, k4, k5, k6, k7, k8, k9, k10, k11, k12⟩ := h.k
  have hr := h.noRace
  clear h
  have hc : ∀ u, u ≠ 2 → (s.m.adopt 2 (s.m.cur 1)).cur u = s.m.cur u := fun u hu => by simp [Mem.adopt, upd_apply, hu]
  have h2 : (s.m.adopt 2 (s.m.cur 1)).cur 2 = (s.m.cur 2).join (s.m.cur 1) := by simp [Mem.adopt, upd_apply]
  have hkn : ∀ i, ((s.m.cur 2).join (s.m.cur 1)).know i = ((s.m.cur 2).know i || (s.m.cur 1).know i) := fun i => rfl
  have hsn : ((s.m.cur 2).join (s.m.cur 1)).seen .tid = max ((s.m.cur 2).seen .tid) ((s.m.cur 1).seen .tid) := rfl
  have hd : s.d = .idle := by
    have := c3 rfl
    cases hd : s.d <;> simp_all
  have hlg : ∀ i b, (s.m.adopt 2 (s.m.cur 1)).logged i b = s.m.logged i b := fun _ _ => rfl
  have hhi : ∀ l j, (s.m.adopt 2 (s.m.cur 1)).hist l j = s.m.hist l j := fun _ _ => rfl
  have hrc : (s.m.adopt 2 (s.m.cur 1)).race = s.m.race := rfl
  generalize s.m.adopt 2 (s.m.cur 1) = m' at *
  refine ⟨?_, ?_, ?_, by rw [hrc]; exact hr⟩
  · constructor <;> (try dsimp only) <;> first | assumption | grind
  · constructor <;> (try dsimp only) <;> first | assumption | grind
  · constructor <;> (try dsimp only) <;> first | assumption | grind

/-- Every step keeps the invariant. -/
theorem inv_step {c : Cfg} (h1 : c.ordS.isRel = true) (h2 : c.ordX.isAcq = true) (h3 : c.ordW.isAcq = true)
    {s s' : St} {a : Act} (h : Inv c.remote s) (he : step c s a = some s') : Inv c.remote s' := by
  have ht : c.thr = if c.remote then 2 else 1 := rfl
  cases a with
  | main ts =>
    simp only [step, stepMain] at he
    split at he
    · rename_i hp; cases he; exact i_make h hp
    · rename_i hp
      split at he
      · cases he
      · rename_i hb
        cases he
        refine i_go h hp (fun hr => ?_) fun hr => ?_
        · simp only [busy, hr] at hb
          cases hd : s.d <;> simp_all
        · cases hs : s.spawned <;> simp_all
    · rename_i hp
      simp only [Option.map_eq_some_iff] at he
      obtain ⟨⟨v, m'⟩, hm, rfl⟩ := he
      exact i_xch h h1 hp hm
    · rename_i hp; cases he; exact i_rsm h hp
    · cases he
    · cases he
  | work =>
    simp only [step] at he
    split at he
    · rename_i hp; cases he; exact i_work h hp.1
    · cases he
  | spawn =>
    simp only [step] at he
    split at he
    · rename_i hp
      cases he
      rw [hp.1] at h ⊢
      exact i_spawn h hp.2.1 hp.2.2
    · cases he
  | compl ts =>
    simp only [step, stepCompl] at he
    split at he
    · rename_i hp
      split at he
      · rename_i hm
        cases he
        refine i_res h ht hp ?_
        simp only [may] at hm
        cases hr : c.remote <;> simp_all
      · cases he
    · rename_i hp
      simp only [Option.map_eq_some_iff] at he
      obtain ⟨⟨v, m'⟩, hm, rfl⟩ := he
      exact i_ld h ht hp hm
    · rename_i hp
      simp only [Option.map_eq_some_iff] at he
      obtain ⟨m', hm, rfl⟩ := he
      exact i_clr h ht hp hm
    · rename_i hp
      simp only [Option.map_eq_some_iff] at he
      obtain ⟨⟨v, m'⟩, hm, rfl⟩ := he
      exact i_xd h ht h2 hp hm
    · rename_i hp
      simp only [Option.map_eq_some_iff] at he
      obtain ⟨⟨v, m'⟩, hm, rfl⟩ := he
      exact i_sp h ht h3 hp hm
    · rename_i hp; cases he; exact i_rd h ht hp
    · cases he

theorem inv_reach {c : Cfg} (h1 : c.ordS.isRel = true) (h2 : c.ordX.isAcq = true) (h3 : c.ordW.isAcq = true)
    {s : St} (h : Reachable c s) : Inv c.remote s :=
  Reach.inv (Inv c.remote) (inv_init _) (fun _ _ _ hi he => inv_step h1 h2 h3 hi he) s h

/-- Orders at least as strong as release at `:347` and acquire at `:294` and `:301`: what the code has. -/
def Cfg.good (c : Cfg) : Prop := c.ordS.isRel = true ∧ c.ordX.isAcq = true ∧ c.ordW.isAcq = true

theorem code_good (r : Bool) : (code r).good := ⟨rfl, rfl, rfl⟩

/-- In no execution do two conflicting accesses race: not to the awaiter, not to the frame, not to the result, and none with the resumption,
which may destroy all three. -/
theorem C97_no_race (c : Cfg) (hc : c.good) (s : St) (h : Reachable c s) : s.m.race = false :=
  (inv_reach hc.1 hc.2.1 hc.2.2 h).noRace

/-- The coroutine is resumed at most once, by at most one of the two. -/
theorem C97_once (c : Cfg) (hc : c.good) (s : St) (h : Reachable c s) : s.resumed ≤ 1 := by
  have hi := (inv_reach hc.1 hc.2.1 hc.2.2 h).c
  have := hi.cnt
  have := hi.l4
  cases hp : s.pc <;> simp_all <;> split <;> omega

/-- Nothing touches the awaiter or the frame after the resumption. -/
theorem C97_no_use_after (c : Cfg) (hc : c.good) (s : St) (h : Reachable c s) (i j : Nat) (a b : Acc)
    (ha : s.m.logged i a) (hb : s.m.logged j b) (hr : a.what = .resume) : j ≤ i :=
  (inv_reach hc.1 hc.2.1 hc.2.2 h).k.last i j a b ha hb hr

/-- Whoever resumes the coroutine knows of every access made so far, the store of the result among them. -/
theorem C97_resumer_knows (c : Cfg) (hc : c.good) (s : St) (h : Reachable c s) :
    (s.pc = .resume → ∀ i b, s.m.logged i b → (s.m.cur 1).know i = true) ∧
    (s.d = .resume → ∀ i b, s.m.logged i b → (s.m.cur c.thr).know i = true) := by
  obtain ⟨hc', hv, hk, _⟩ := inv_reach hc.1 hc.2.1 hc.2.2 h
  refine ⟨fun hp i b hl => ?_, fun hd i b hl => ?_⟩
  · have e := hk.own i b hl
    cases hr : c.remote with
    | true => exact absurd hp (hc'.r1 hr).1
    | false => rw [hk.who0 i b hr hl] at e; exact e
  · have e := hk.own i b hl
    cases hr : c.remote with
    | true =>
      simp only [Cfg.thr, hr, if_true]
      rcases hk.who1 i b hr hl with hw | hw
      · exact hk.kr i b hr hd hl hw
      · rw [hw] at e; exact e
    | false => rw [hk.who0 i b hr hl] at e; simpa [Cfg.thr, hr] using e

/-- The coroutine is resumed only after the operation has completed and stored its result. -/
theorem C97_completed (c : Cfg) (hc : c.good) (s : St) (h : Reachable c s) (hr : s.resumed ≠ 0) : s.d = .fin := by
  have hi := (inv_reach hc.1 hc.2.1 hc.2.2 h).c
  have := hi.cnt
  cases hrm : c.remote
  · have := hi.l4 hrm
    cases hp : s.pc <;> simp_all
  · have := hi.r1 hrm
    cases hp : s.pc <;> simp_all

/-- Once the operation has completed and neither side can go on, the coroutine has been resumed, exactly once. -/
theorem C97_resumed (c : Cfg) (hc : c.good) (s : St) (h : Reachable c s) (hd : s.d = .fin) (hp : s.pc = .susp ∨ s.pc = .fin) :
    s.resumed = 1 := by
  have hi := (inv_reach hc.1 hc.2.1 hc.2.2 h).c
  have := hi.cnt
  rcases hp with hp | hp <;> simp_all

/-! ### Progress -/

theorem wf_adopt {m : Mem Loc Acc} (h : m.Wf) : (m.adopt 2 (m.cur 1)).Wf := by
  refine ⟨h.zero, fun u x => ?_, h.msg⟩
  by_cases hu : u = 2
  · subst hu
    have e : ((m.adopt 2 (m.cur 1)).cur 2).seen x = max ((m.cur 2).seen x) ((m.cur 1).seen x) := by simp [Mem.adopt, upd_same, View.join]
    rw [e]
    exact max_ne (P := fun n => m.hist x n ≠ none) (h.cur 2 x) (h.cur 1 x)
  · have e : (m.adopt 2 (m.cur 1)).cur u = m.cur u := by simp [Mem.adopt, upd_other _ _ hu]
    rw [e]
    exact h.cur u x

theorem wf_step {c : Cfg} {s s' : St} {a : Act} (h : s.m.Wf) (he : step c s a = some s') : s'.m.Wf := by
  cases a with
  | main ts =>
    simp only [step, stepMain] at he
    split at he
    · cases he; exact h.touch 1 _
    · split at he
      · cases he
      · cases he; exact h
    · simp only [Option.map_eq_some_iff] at he
      obtain ⟨⟨v, m'⟩, hm, rfl⟩ := he
      exact h.rmw hm
    · cases he; exact h.touch 1 _
    · cases he
    · cases he
  | work =>
    simp only [step] at he
    split at he
    · cases he; exact h.touch 1 _
    · cases he
  | spawn =>
    simp only [step] at he
    split at he
    · cases he; exact wf_adopt h
    · cases he
  | compl ts =>
    simp only [step, stepCompl] at he
    split at he
    · split at he
      · cases he; exact h.touch _ _
      · cases he
    · simp only [Option.map_eq_some_iff] at he
      obtain ⟨⟨v, m'⟩, hm, rfl⟩ := he
      exact h.load hm
    · simp only [Option.map_eq_some_iff] at he
      obtain ⟨m', hm, rfl⟩ := he
      exact h.store hm
    · simp only [Option.map_eq_some_iff] at he
      obtain ⟨⟨v, m'⟩, hm, rfl⟩ := he
      exact h.rmw hm
    · simp only [Option.map_eq_some_iff] at he
      obtain ⟨⟨v, m'⟩, hm, rfl⟩ := he
      exact h.load hm
    · cases he; exact h.touch _ _
    · cases he

theorem wf_reach {c : Cfg} {s : St} (h : Reachable c s) : s.m.Wf :=
  Reach.inv (fun s => s.m.Wf) (Mem.Wf.init _) (fun _ _ _ hi he => wf_step hi he) s h

/-- How far thread 1 is from the end. -/
def pcR : PC → Nat
  | .idle => 4 | .start => 3 | .exch => 2 | .resume => 1 | .susp => 0 | .fin => 0

/-- How far the completion is from the end. -/
def dR : DC → Nat
  | .idle => 5 | .load => 4 | .clear => 3 | .exch => 3 | .spin => 2 | .resume => 1 | .fin => 0

def mu (s : St) : Nat := pcR s.pc + dR s.d + if s.spawned then 0 else 1

theorem better {c : Cfg} (hc : c.good) {s : St} (h : Reachable c s) (hr : s.resumed = 0) :
    ∃ a s', step c s a = some s' ∧ mu s' < mu s := by
  have hi := inv_reach hc.1 hc.2.1 hc.2.2 h
  have hw := wf_reach h
  obtain ⟨g, hg⟩ := Option.ne_none_iff_exists'.mp hi.v.top
  have compl : s.d ≠ .idle → s.d ≠ .fin → (s.d = .spin → s.pc = .susp) → ∃ a s', step c s a = some s' ∧ mu s' < mu s := by
    intro h1 h2 h3
    cases hd : s.d with
    | idle => exact absurd hd h1
    | fin => exact absurd hd h2
    | load =>
      obtain ⟨m', e⟩ := load_ok (conf := conf) hw hi.v.above hg c.ordB c.thr ⟨c.thr, .atom⟩
      refine ⟨.compl s.k, _, by simp only [step, stepCompl, hd, e]; rfl, ?_⟩
      simp only [mu, hd]; split <;> simp [dR]
    | clear =>
      obtain ⟨m', e⟩ := store_ok (conf := conf) hw hi.v.above c.ordI c.thr 0 ⟨c.thr, .atom⟩
      exact ⟨.compl (s.k + 1), _, by simp only [step, stepCompl, hd, e]; rfl, by simp [mu, hd, dR]⟩
    | exch =>
      obtain ⟨m', e⟩ := rmw_ok (conf := conf) hw hi.v.above hg c.ordX c.thr (fun _ => c.thr) ⟨c.thr, .atom⟩
      refine ⟨.compl s.k, _, by simp only [step, stepCompl, hd, e]; rfl, ?_⟩
      simp only [mu, hd]; split <;> simp [dR]
    | spin =>
      obtain ⟨m', e⟩ := load_ok (conf := conf) hw hi.v.above hg c.ordW c.thr ⟨c.thr, .atom⟩
      refine ⟨.compl s.k, _, by simp only [step, stepCompl, hd, e]; rfl, ?_⟩
      have hv : g.val = 0 := by
        cases hrm : c.remote
        · exact absurd hd (hi.c.l6 hrm)
        · exact hi.v.a3 g hrm hg (h3 hd) (by simp [hd]) (by simp [hd])
      simp [mu, hd, hv, dR]
    | resume => exact ⟨.compl 0, { acc s c.thr .resume with d := .fin, resumed := s.resumed + 1 }, by simp [step, stepCompl, hd], by simp [mu, hd, dR, acc]⟩
  cases hp : s.pc with
  | idle => exact ⟨.main 0, { acc s 1 .make with pc := .start }, by simp [step, stepMain, hp], by simp [mu, hp, pcR, acc]⟩
  | start =>
    cases hrm : c.remote with
    | true =>
      cases hs : s.spawned with
      | true =>
        exact ⟨.main 0, { s with pc := .exch }, by simp [step, stepMain, hp, busy, hrm, hs], by simp [mu, hp, pcR]⟩
      | false => exact ⟨.spawn, { s with spawned := true, m := s.m.adopt 2 (s.m.cur 1) }, by simp [step, hp, hrm, hs], by simp [mu, hs]⟩
    | false =>
      by_cases hb : busy c s = true
      · simp [busy, hrm] at hb
        exact compl hb.1 hb.2 fun e => absurd e (hi.c.l6 hrm)
      · exact ⟨.main 0, { s with pc := .exch }, by simp [step, stepMain, hp, hb, hrm], by simp [mu, hp, pcR]⟩
  | exch =>
    obtain ⟨m', e⟩ := rmw_ok (conf := conf) hw hi.v.above hg c.ordS 1 (fun _ => 0) ⟨1, .atom⟩
    refine ⟨.main s.k, _, by simp only [step, stepMain, hp, e]; rfl, ?_⟩
    simp only [mu, hp]; split <;> simp [pcR]
  | resume => exact ⟨.main 0, { acc s 1 .resume with pc := .fin, resumed := s.resumed + 1 }, by simp [step, stepMain, hp], by simp [mu, hp, pcR, acc]⟩
  | fin =>
    have := hi.c.cnt
    simp [hp, hr] at this
  | susp =>
    have hcnt := hi.c.cnt
    by_cases h1 : s.d = .idle
    · refine ⟨.compl 0, { acc s c.thr .result with d := .load }, ?_, by simp [mu, h1, dR, acc]⟩
      have hm : may c s = true := by
        cases hrm : c.remote with
        | true => simp [may, hrm, hi.c.r5 hrm (by simp [hp]) (by simp [hp])]
        | false => simp [may, hrm, hp]
      simp [step, stepCompl, h1, hm]
    · by_cases h2 : s.d = .fin
      · simp [hp, h2, hr] at hcnt
      · exact compl h1 h2 fun _ => hp

/-- Nothing is ever stuck: from every reachable state, whatever has happened, some way of going on in which loads read the newest message
resumes the coroutine. -/
theorem C97_progress (c : Cfg) (hc : c.good) (s : St) (h : Reachable c s) : ∃ acts s', exec (step c) s acts = some s' ∧ s'.resumed = 1 := by
  generalize hn : mu s = n
  induction n using Nat.strongRecOn generalizing s with
  | _ n ih =>
    by_cases hr : s.resumed = 0
    · obtain ⟨a, s', he, hl⟩ := better hc h hr
      obtain ⟨acts, s2, h2, h3⟩ := ih (mu s') (by omega) s' (Reach.tail a h he) rfl
      exact ⟨a :: acts, s2, by simp only [exec, he]; exact h2, h3⟩
    · exact ⟨[], s, rfl, by have := C97_once c hc s h; omega⟩

/-! ### The orders are needed -/

/-- Thread 2 completes after the suspension, and resumes. -/
def late : List Act := [.main 0, .spawn, .main 0, .main 0, .compl 0, .compl 1, .compl 1, .compl 0]

/-- Thread 2 completes before the suspension and spins. -/
def early : List Act := [.main 0, .spawn, .compl 0, .compl 0, .compl 0, .main 0, .main 1, .compl 2, .compl 0]

example : (exec (step (code true)) init late).map (fun s => (s.resumed, s.pc, s.d, s.m.race)) = some (1, .susp, .fin, false) := by decide +kernel
example : (exec (step (code true)) init early).map (fun s => (s.resumed, s.pc, s.d, s.m.race)) = some (1, .susp, .fin, false) := by decide +kernel
/-- Completion inside `start`. -/
example : (exec (step (code false)) init [.main 0, .work, .compl 0, .compl 0, .compl 1, .main 0, .main 1, .main 0]).map
    (fun s => (s.resumed, s.pc, s.d, s.m.race)) = some (1, .fin, .fin, false) := by decide +kernel
/-- Completion on thread 1 after the suspension. -/
example : (exec (step (code false)) init [.main 0, .work, .main 0, .main 0, .compl 0, .compl 1, .compl 1, .compl 0]).map
    (fun s => (s.resumed, s.pc, s.d, s.m.race)) = some (1, .susp, .fin, false) := by decide +kernel

/-- Each of the three orders is needed: with any one relaxed, the resumption of the coroutine can race with `start`. -/
theorem C97_orders_needed :
    (∃ s, Reachable { code true with ordS := .rlx } s ∧ s.m.race = true) ∧
    (∃ s, Reachable { code true with ordX := .rlx } s ∧ s.m.race = true) ∧
    (∃ s, Reachable { code true with ordW := .rlx } s ∧ s.m.race = true) := by
  refine ⟨?_, ?_, ?_⟩
  · exact (Reach.witness (init := init) (step := step _) (.main 0 :: .spawn :: .work :: late.drop 2) (fun x : St => x.m.race) (by decide +kernel))
  · exact (Reach.witness (init := init) (step := step _) (.main 0 :: .spawn :: .work :: late.drop 2) (fun x : St => x.m.race) (by decide +kernel))
  · exact (Reach.witness (init := init) (step := step _) (.main 0 :: .spawn :: .work :: early.drop 2) (fun x : St => x.m.race) (by decide +kernel))

end Verif.WmAwait
