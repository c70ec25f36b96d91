import Verif.WmWhenAll.Inv
/-!
# `when_all` under the C++ memory model — the invariant is preserved
-/
namespace Verif.WmWhenAll

open Verif.WM

set_option maxHeartbeats 8000000 in
/-- A plain access by a thread that has yet to arrive. -/
theorem inv_touch {c : Cfg} {s : St} {t : Nat} {o : Obj} {vals : Nat → Option Nat} {err : Option Nat} (h : Inv c s)
    (hp : s.pc t = .run ∧ t < c.n ∨ s.pc t = .save)
    (ho : o = .value t ∨ o = .errors ∧ s.win = some t) :
    Inv c { s with m := s.m.touch conf t ⟨t, o, .write⟩, vals := vals, err := err, pc := upd s.pc t .arrive } := by
  have hpe : pend c.n s.pc t = true := by rcases hp with ⟨h1, h2⟩ | h1 <;> simp [pend, h1, *]
  have hq := quiet (a := ⟨t, o, .write⟩) h hpe (by rcases ho with h1 | h1 <;> simp [h1])
  obtain ⟨t1, t2, t3, t4, t5, t6⟩ := touch_spec conf s.m t ⟨t, o, .write⟩
  have hpe2 : pend c.n (upd s.pc t .arrive) t = true := by simp [pend]
  have hcs := cnt_same (pc := s.pc) (p := .arrive) (t := t) (n := c.n) (by rw [hpe, hpe2])
  have hpo := @pend_other c.n s.pc t (p := .arrive)
  have hlog := fun k b => logged_snoc t2 k b
  obtain ⟨g1, g2, g3, g4, g5, g6, g7, g8, g9, g10, g11, g12, g13, g14, g15, g16, g17, g18, g19, g20, g21, g22, g23, g24⟩ := h
  have hlt := logged_lt s.m
  have nl : ∀ u, last (s.pc u) = false := fun u => by
    cases hl : last (s.pc u) with
    | false => rfl
    | true => rw [g10 u t hl] at hpe; cases hpe
  have e1 : last .arrive = false := rfl
  generalize s.m.touch conf t ⟨t, o, .write⟩ = m' at *
  constructor <;> (try dsimp only) <;> first | assumption | grind | skip

set_option maxHeartbeats 8000000 in
/-- A read-modify-write of the state by a thread that has yet to arrive. -/
theorem inv_rmwS {c : Cfg} {s : St} {t ts v : Nat} {o : Ord} {f : Nat → Nat} {m' : Mem Loc Acc} {p : PC} {win stp : Option Nat}
    (h : Inv c s) (hn : t ≤ c.n) (hp : pend c.n s.pc t = true) (hns : s.pc t ≠ .save) (hpp : p = .arrive ∨ p = .save ∧ win = some t)
    (hw : win = s.win ∨ s.win = none ∧ win = some t)
    (hm : s.m.rmw conf o t .state ts f (atom t) = some (v, m')) :
    ts = s.ks ∧ Inv c { s with m := m', ks := ts + 1, sw := t, pc := upd s.pc t p, win := win, stp := stp } := by
  have hq := quiet (a := atom t) h hp (by simp [atom])
  obtain ⟨g, t1, t2, t3, t4, t5, t6, t7, t8, t9, t10, g', t11, t12, t13, t14⟩ := rmw_spec hm
  have hlt : p ≠ .run ∧ p ≠ .gone ∧ last p = false := by rcases hpp with h1 | ⟨h1, _⟩ <;> simp [h1, last]
  have hpe2 : pend c.n (upd s.pc t p) t = true := by rcases hpp with h1 | ⟨h1, _⟩ <;> simp [pend, h1]
  have hcs := cnt_same (pc := s.pc) (p := p) (t := t) (n := c.n) (by rw [hp, hpe2])
  have hpo := @pend_other c.n s.pc t (p := p)
  have hlog := fun k b => logged_snoc t5 k b
  obtain ⟨g1, g2, g3, g4, g5, g6, g7, g8, g9, g10, g11, g12, g13, g14, g15, g16, g17, g18, g19, g20, g21, g22, g23, g24⟩ := h
  have hlt := logged_lt s.m
  have nl : ∀ u, last (s.pc u) = false := fun u => by
    cases hl : last (s.pc u) with
    | false => rfl
    | true => rw [g10 u t hl] at hp; cases hp
  have ha : (atom t).who = t ∧ (atom t).obj = .atom ∧ (atom t).how = .read := ⟨rfl, rfl, rfl⟩
  generalize atom t = a at *
  have hts : ts = s.ks := by
    have e1 : ts ≤ s.ks := by
      by_cases hle : ts ≤ s.ks
      · exact hle
      · rw [g4 ts (by omega)] at t1; cases t1
    have e2 : ¬ ts + 1 ≤ s.ks := fun hle => g3 _ hle t4
    omega
  refine ⟨hts, ?_⟩
  have hr : m'.race = false := by rw [t6, g17, hq]; rfl
  clear hm hq t6
  constructor <;> (try dsimp only) <;> first | assumption | grind | skip

set_option maxHeartbeats 8000000 in
/-- A load of the state by a thread that has yet to arrive. -/
theorem inv_loadS {c : Cfg} {s : St} {t ts v : Nat} {o : Ord} {m' : Mem Loc Acc}
    (h : Inv c s) (hn : t ≤ c.n) (hp : pend c.n s.pc t = true) (hns : s.pc t ≠ .save)
    (hm : s.m.load conf o t .state ts (atom t) = some (v, m')) :
    Inv c { s with m := m', pc := upd s.pc t .arrive } := by
  have hq := quiet (a := atom t) h hp (by simp [atom])
  obtain ⟨g, t1, t2, t3, t4, t5, t6, t7, t8, t9⟩ := load_spec hm
  have hpe2 : pend c.n (upd s.pc t .arrive) t = true := by simp [pend]
  have hcs := cnt_same (pc := s.pc) (p := .arrive) (t := t) (n := c.n) (by rw [hp, hpe2])
  have hpo := @pend_other c.n s.pc t (p := .arrive)
  have hlog := fun k b => logged_snoc t5 k b
  have e1 : last .arrive = false := rfl
  obtain ⟨g1, g2, g3, g4, g5, g6, g7, g8, g9, g10, g11, g12, g13, g14, g15, g16, g17, g18, g19, g20, g21, g22, g23, g24⟩ := h
  have hlt := logged_lt s.m
  have nl : ∀ u, last (s.pc u) = false := fun u => by
    cases hl : last (s.pc u) with
    | false => rfl
    | true => rw [g10 u t hl] at hp; cases hp
  have ha : (atom t).who = t ∧ (atom t).obj = .atom ∧ (atom t).how = .read := ⟨rfl, rfl, rfl⟩
  generalize atom t = a at *
  have hr : m'.race = false := by rw [t6, g17, hq]; rfl
  clear hm hq t6
  constructor <;> (try dsimp only) <;> first | assumption | grind | skip

set_option maxHeartbeats 8000000 in
/-- The stop callback increments the count. -/
theorem inv_inc {c : Cfg} {s : St} {t ts v : Nat} {o : Ord} {m' : Mem Loc Acc}
    (h : Inv c s) (hn : t = c.n) (hp : s.pc t = .run) (hv : 1 ≤ v)
    (hm : s.m.rmw conf o t .count ts (fun v => v + 1) (atom t) = some (v, m')) :
    ts = s.kc ∧ Inv c { s with m := m', kc := ts + 1, pc := upd s.pc t .cas } := by
  obtain ⟨g, t1, t2, t3, t4, t5, t6, t7, t8, t9, t10, g', t11, t12, t13, t14⟩ := rmw_spec hm
  have hpe : pend c.n s.pc t = false := by simp only [pend, hp]; simp [hn]
  have hpe2 : pend c.n (upd s.pc t .cas) t = true := by simp [pend]
  have hcs := cnt_up (pc := s.pc) (p := .cas) (t := t) (n := c.n) (by omega) hpe2 hpe
  have hpo := @pend_other c.n s.pc t (p := .cas)
  have hlog := fun k b => logged_snoc t5 k b
  have e1 : last .cas = false := rfl
  have hq0 : (∀ u, last (s.pc u) = false) → s.m.racy conf t (atom t) = false := by
    intro nl
    rw [racy_false]; intro k b hk hc
    have h1 := h.late k b hk
    have h2 := h.watom k b hk
    simp only [conf, atom, Bool.or_eq_true, Bool.and_eq_true, decide_eq_true_eq] at hc
    rw [nl] at h1
    exfalso
    cases hh : b.how <;> grind
  obtain ⟨g1, g2, g3, g4, g5, g6, g7, g8, g9, g10, g11, g12, g13, g14, g15, g16, g17, g18, g19, g20, g21, g22, g23, g24⟩ := h
  have hlt := logged_lt s.m
  have hts : ts = s.kc := by
    have e1 : ts ≤ s.kc := by
      by_cases hle : ts ≤ s.kc
      · exact hle
      · rw [g2 ts (by omega)] at t1; cases t1
    have e2 : ¬ ts + 1 ≤ s.kc := fun hle => g1 _ hle t4
    omega
  subst hts
  have hcv := g5 g t1
  have nl : ∀ u, last (s.pc u) = false := fun u => by
    cases hl : last (s.pc u) with
    | false => rfl
    | true =>
      have : cnt (pend c.n s.pc) (c.n + 1) = 0 := cnt_zero_iff.2 (fun i _ => g10 u i hl)
      omega
  have hq := hq0 nl
  have ha : (atom t).who = t ∧ (atom t).obj = .atom ∧ (atom t).how = .read := ⟨rfl, rfl, rfl⟩
  generalize atom t = a at *
  refine ⟨rfl, ?_⟩
  have hr : m'.race = false := by rw [t6, g17, hq]; rfl
  clear hm hq t6 hq0
  constructor <;> (try dsimp only) <;> first | assumption | grind | skip

set_option maxHeartbeats 8000000 in
/-- A thread arrives, with an acquire-release decrement. -/
theorem inv_arrive {c : Cfg} {s : St} {t ts v : Nat} {o : Ord} {m' : Mem Loc Acc}
    (h : Inv c s) (hn : t ≤ c.n) (hp : s.pc t = .arrive) (ho1 : o.isAcq = true) (ho2 : o.isRel = true)
    (hm : s.m.rmw conf o t .count ts (fun v => v - 1) (atom t) = some (v, m')) :
    ts = s.kc ∧ Inv c { s with m := m', kc := ts + 1, pc := upd s.pc t (if v = 1 then .load else .gone) } := by
  have hpe : pend c.n s.pc t = true := by simp [pend, hp]
  have hq := quiet (a := atom t) h hpe (by simp [atom])
  obtain ⟨g, t1, t2, t3, t4, t5, t6, t7, t8, t9, t10, g', t11, t12, t13, t14⟩ := rmw_spec hm
  have hlog := fun k b => logged_snoc t5 k b
  obtain ⟨g1, g2, g3, g4, g5, g6, g7, g8, g9, g10, g11, g12, g13, g14, g15, g16, g17, g18, g19, g20, g21, g22, g23, g24⟩ := h
  have hlt := logged_lt s.m
  have hts : ts = s.kc := by
    have e1 : ts ≤ s.kc := by
      by_cases hle : ts ≤ s.kc
      · exact hle
      · rw [g2 ts (by omega)] at t1; cases t1
    have e2 : ¬ ts + 1 ≤ s.kc := fun hle => g1 _ hle t4
    omega
  subst hts
  have hcv := g5 g t1
  have nl : ∀ u, last (s.pc u) = false := fun u => by
    cases hl : last (s.pc u) with
    | false => rfl
    | true => rw [g10 u t hl] at hpe; cases hpe
  have ha : (atom t).who = t ∧ (atom t).obj = .atom ∧ (atom t).how = .read := ⟨rfl, rfl, rfl⟩
  generalize atom t = a at *
  refine ⟨rfl, ?_⟩
  have hr : m'.race = false := by rw [t6, g17, hq]; rfl
  clear hm hq t6
  rw [ho1, ho2] at *
  split
  · have hpe2 : pend c.n (upd s.pc t .load) t = false := by simp [pend]
    have hcs := cnt_down (pc := s.pc) (p := .load) (t := t) (n := c.n) hn hpe2 hpe
    have hpo := @pend_other c.n s.pc t (p := .load)
    have e1 : last .load = true := rfl
    have hz : ∀ u, pend c.n (upd s.pc t .load) u = false := fun u => by
      by_cases hu : u < c.n + 1
      · exact cnt_zero_iff.1 (by omega) u hu
      · by_cases hut : u = t
        · omega
        · rw [hpo u hut]; simp only [pend, g6 u (by omega)]; simp; omega
    have hz2 : ∀ u, u ≠ t → s.pc u ≠ .run → s.pc u = .gone := fun u hu hr => by
      have h1 := hz u
      have h2 := nl u
      rw [hpo u hu] at h1
      cases hx : s.pc u <;> simp_all [pend, last]
    constructor <;> (try dsimp only) <;> first | assumption | grind | skip
  · have hpe2 : pend c.n (upd s.pc t .gone) t = false := by simp [pend]
    have hcs := cnt_down (pc := s.pc) (p := .gone) (t := t) (n := c.n) hn hpe2 hpe
    have hpo := @pend_other c.n s.pc t (p := .gone)
    have e1 : last .gone = false := rfl
    constructor <;> (try dsimp only) <;> first | assumption | grind | skip

set_option maxHeartbeats 8000000 in
/-- The last to arrive loads the state. -/
theorem inv_loadL {c : Cfg} {s : St} {t ts v : Nat} {o : Ord} {m' : Mem Loc Acc} {p : PC} {out : List Out}
    (h : Inv c s) (hnf : s.pc t ≠ .fin) (hp : last (s.pc t) = true) (hpl : last p = true)
    (hm : s.m.load conf o t .state ts (atom t) = some (v, m')) :
    ts = s.ks ∧ Inv c { s with m := m', pc := upd s.pc t p, out := out } := by
  have hff : ∀ k a, s.m.logged k a → a.how ≠ .free := fun k a hk hx => by
    have h1 := h.freeFin k a hk hx
    have := h.lastOne t a.who hp (by rw [h1]; rfl)
    rw [← this] at h1; exact hnf h1
  have hq := quietLast (a := atom t) h hp
  obtain ⟨g, t1, t2, t3, t4, t5, t6, t7, t8, t9⟩ := load_spec hm
  have hpe := h.lastAll t t hp
  have hpe2 : pend c.n (upd s.pc t p) t = false := by cases p <;> simp_all [pend, last]
  have hcs := cnt_same (pc := s.pc) (p := p) (t := t) (n := c.n) (by rw [hpe, hpe2])
  have hpo := @pend_other c.n s.pc t (p := p)
  have hlog := fun k b => logged_snoc t5 k b
  have hr1 : p ≠ .run ∧ p ≠ .gone ∧ p ≠ .save := by cases p <;> simp_all [last]
  have hr2 : s.pc t ≠ .run ∧ s.pc t ≠ .gone ∧ s.pc t ≠ .save := by cases hx : s.pc t <;> simp_all [last]
  obtain ⟨g1, g2, g3, g4, g5, g6, g7, g8, g9, g10, g11, g12, g13, g14, g15, g16, g17, g18, g19, g20, g21, g22, g23, g24⟩ := h
  have hlt := logged_lt s.m
  have hts : ts = s.ks := by
    have e1 : ts ≤ s.ks := by
      by_cases hle : ts ≤ s.ks
      · exact hle
      · rw [g4 ts (by omega)] at t1; cases t1
    have := g16 t hp
    omega
  have ha : (atom t).who = t ∧ (atom t).obj = .atom ∧ (atom t).how = .read := ⟨rfl, rfl, rfl⟩
  generalize atom t = a at *
  have hr : m'.race = false := by rw [t6, g17, hq]; rfl
  refine ⟨hts, ?_⟩
  clear hm hq t6
  constructor <;> (try dsimp only) <;> first | assumption | grind | skip

set_option maxHeartbeats 8000000 in
/-- A plain access by the last to arrive. -/
theorem inv_touchL {c : Cfg} {s : St} {t : Nat} {a : Acc} {p : PC} {out : List Out}
    (h : Inv c s) (hnf : s.pc t ≠ .fin) (hp : last (s.pc t) = true) (hpl : last p = true)
    (ha : a.who = t ∧ a.how ≠ .write ∧ a.obj ≠ .atom ∧ (a.how = .free → p = .fin)) :
    Inv c { s with m := s.m.touch conf t a, pc := upd s.pc t p, out := out } := by
  have hff : ∀ k a, s.m.logged k a → a.how ≠ .free := fun k a hk hx => by
    have h1 := h.freeFin k a hk hx
    have := h.lastOne t a.who hp (by rw [h1]; rfl)
    rw [← this] at h1; exact hnf h1
  have hq := quietLast (a := a) h hp
  obtain ⟨t1, t2, t3, t4, t5, t6⟩ := touch_spec conf s.m t a
  have hpe := h.lastAll t t hp
  have hpe2 : pend c.n (upd s.pc t p) t = false := by cases p <;> simp_all [pend, last]
  have hcs := cnt_same (pc := s.pc) (p := p) (t := t) (n := c.n) (by rw [hpe, hpe2])
  have hpo := @pend_other c.n s.pc t (p := p)
  have hlog := fun k b => logged_snoc t2 k b
  have hr1 : p ≠ .run ∧ p ≠ .gone ∧ p ≠ .save := by cases p <;> simp_all [last]
  have hr2 : s.pc t ≠ .run ∧ s.pc t ≠ .gone ∧ s.pc t ≠ .save := by cases hx : s.pc t <;> simp_all [last]
  obtain ⟨g1, g2, g3, g4, g5, g6, g7, g8, g9, g10, g11, g12, g13, g14, g15, g16, g17, g18, g19, g20, g21, g22, g23, g24⟩ := h
  have hlt := logged_lt s.m
  generalize s.m.touch conf t a = m' at *
  have hr : m'.race = false := by rw [t3, g17, hq]; rfl
  clear hq t3
  constructor <;> (try dsimp only) <;> first | assumption | grind | skip

set_option maxHeartbeats 8000000 in
/-- The last to arrive goes on without an access. -/
theorem inv_moveL {c : Cfg} {s : St} {t : Nat} {p : PC} {out : List Out}
    (h : Inv c s) (hnf : s.pc t ≠ .fin) (hp : last (s.pc t) = true) (hpl : last p = true) : Inv c { s with pc := upd s.pc t p, out := out } := by
  have hpe := h.lastAll t t hp
  have hpe2 : pend c.n (upd s.pc t p) t = false := by cases p <;> simp_all [pend, last]
  have hcs := cnt_same (pc := s.pc) (p := p) (t := t) (n := c.n) (by rw [hpe, hpe2])
  have hpo := @pend_other c.n s.pc t (p := p)
  have hr1 : p ≠ .run ∧ p ≠ .gone ∧ p ≠ .save := by cases p <;> simp_all [last]
  have hr2 : s.pc t ≠ .run ∧ s.pc t ≠ .gone ∧ s.pc t ≠ .save := by cases hx : s.pc t <;> simp_all [last]
  obtain ⟨g1, g2, g3, g4, g5, g6, g7, g8, g9, g10, g11, g12, g13, g14, g15, g16, g17, g18, g19, g20, g21, g22, g23, g24⟩ := h
  have hlt := logged_lt s.m
  constructor <;> (try dsimp only) <;> first | assumption | grind | skip

end Verif.WmWhenAll
