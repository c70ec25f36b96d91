import Verif.WmLoop.Model
import Verif.WM.Lemmas
import Verif.WM.Wf
import Verif.Run
/-!
# The end of a `run_loop` under the C++ memory model — theorems (C98)
-/
namespace Verif.WmLoop

open Verif.WM

/-- Operations counted, not yet pushed, by other threads. -/
def np (c : Cfg) (s : St) : Nat := cnt (fun i => decide (s.st i = .push)) c.n

/-- What `finish` has in the count, its task in the queue not included. -/
def fw : FC → Nat
  | .idle => 0 | .exch => 2 | .push => 2 | .note => 1 | .sub => 1 | .done => 0

/-- The empty task was not yet pushed. -/
def fb : FC → Nat
  | .idle => 1 | .exch => 1 | .push => 1 | .note => 0 | .sub => 0 | .done => 0

/-- Control. -/
structure Ctl (c : Cfg) (s : St) : Prop where
  e1 : s.r ≠ .exec → s.b = 0 ∧ s.left = 0 ∧ s.nest = false
  e2 : s.r = .exec → 0 < s.b
  e3 : s.left ≤ s.b
  tot : s.ran + s.left + s.nq + np c s + (if s.nest then 1 else 0) + fb s.f = s.started + 1
  dr : s.drain = true → s.f ≠ .idle ∧ s.f ≠ .exch
  ck : s.r = .chk → s.drain = true
  ex : s.r = .exit ∨ s.r = .gone → s.f = .done ∧ s.nq = 0 ∧ np c s = 0
  out : ∀ i, c.n ≤ i → s.st i = .idle

/-- Values. -/
structure Val (c : Cfg) (s : St) : Prop where
  ac : ∀ j, s.kc < j → s.m.hist .cnt j = none
  gc : ∀ j, j ≤ s.kc → s.m.hist .cnt j ≠ none
  aq : ∀ j, s.kq < j → s.m.hist .q j = none
  gq : ∀ j, j ≤ s.kq → s.m.hist .q j ≠ none
  af : ∀ j, s.kf < j → s.m.hist .fin j = none
  gf : ∀ j, j ≤ s.kf → s.m.hist .fin j ≠ none
  kf : s.kf = if s.f = .idle ∨ s.f = .exch then 0 else 1
  vc : ∀ g, s.m.hist .cnt s.kc = some g → g.val = np c s + s.nq + s.b + (if s.nest then 1 else 0) + fw s.f
  vq : ∀ g, s.m.hist .q s.kq = some g → g.val = s.nq
  v0 : ∀ g, s.m.hist .fin 0 = some g → g.val = 0
  v1 : ∀ j g, s.m.hist .fin j = some g → 1 ≤ j → g.val = 1
  p2 : s.p2 ≤ s.kc
  pz : ∀ j g, s.f ≠ .idle → s.p2 ≤ j → j < s.kc → s.m.hist .cnt j = some g → g.val ≠ 0
  fs : s.f ≠ .idle → s.p2 ≤ (s.m.cur 1).seen .cnt
  fv : ∀ j g, s.m.hist .fin j = some g → 1 ≤ j → s.p2 ≤ g.view.seen .cnt
  ds : s.drain = true → s.p2 ≤ (s.m.cur 0).seen .cnt

/-- The flag is seen with the empty task. -/
structure Wk (s : St) : Prop where
  w1 : s.r = .wait → fb s.f = 0 → 0 < s.nq
  w2 : fb s.f = 0 → (s.m.cur 0).seen .fin = 0 → 0 < s.nq
  w3 : ∀ g, fb s.f = 0 → s.m.hist .q s.kq = some g → 1 ≤ g.view.seen .fin
  f1 : s.f ≠ .idle → s.f ≠ .exch → 1 ≤ (s.m.cur 1).seen .fin

/-- Knowledge. -/
structure Kn (s : St) : Prop where
  own : ∀ i a, s.m.logged i a → (s.m.cur a.who).know i = true
  who : ∀ i a, s.m.logged i a → 2 ≤ a.who → s.st (a.who - 2) ≠ .idle
  gone : ∀ i a, s.m.logged i a → a.what = .destroy → s.r = .gone
  kq : ∀ i a g, s.m.logged i a → 2 ≤ a.who → s.st (a.who - 2) = .done → s.m.hist .q s.kq = some g → g.view.know i = true
  k0 : ∀ i a, s.m.logged i a → 2 ≤ a.who → s.st (a.who - 2) = .done → s.nq = 0 → (s.m.cur 0).know i = true
  k1 : ∀ i a g, s.m.logged i a → a.who = 1 → s.f = .done → s.m.hist .cnt s.kc = some g → g.view.know i = true
  ex : s.r = .exit → ∀ i a, s.m.logged i a → (s.m.cur 0).know i = true
  last : ∀ i j a b, s.m.logged i a → s.m.logged j b → a.what = .destroy → j ≤ i

structure Inv (c : Cfg) (s : St) : Prop where
  ctl : Ctl c s
  v : Val c s
  w : Wk s
  k : Kn s
  noRace : s.m.race = false

theorem inv_init (c : Cfg) : Inv c init := by
  have h0 : np c init = 0 := by
    simp only [np, init]
    rw [cnt_zero_iff]
    intro i _; rfl
  refine ⟨?_, ?_, ?_, ?_, rfl⟩
  · constructor <;> (try rw [h0]) <;> simp [init, fb]
  · constructor <;> (try rw [h0]) <;> simp (config := { contextual := true }) [init, Mem.init, View.bot, fw]
    all_goals grind
  · constructor <;> simp [init, fb]
  · constructor <;> simp (config := { contextual := true }) [init, Mem.init, Mem.logged]

/-- `np` depends on the threads only. -/
theorem np_eq {c : Cfg} {s s' : St} (h : s'.st = s.st) : np c s' = np c s := by simp only [np, h]

theorem np_add {c : Cfg} {s s' : St} {i : Nat} (hi : i < c.n) (h0 : s.st i ≠ .push) (h : s'.st = upd s.st i .push) : np c s' = np c s + 1 := by
  refine cnt_flip (a := i) hi ?_ ?_ ?_
  · simp [h0]
  · simp [h, upd_same]
  · intro j hj; simp [h, upd_other _ _ hj]

theorem np_sub {c : Cfg} {s s' : St} {i : Nat} (hi : i < c.n) (h0 : s.st i = .push) (h : s'.st = upd s.st i .done) : np c s = np c s' + 1 := by
  refine cnt_flip (a := i) hi ?_ ?_ ?_
  · simp [h, upd_same]
  · simp [h0]
  · intro j hj; simp [h, upd_other _ _ hj]

set_option maxHeartbeats 8000000 in
theorem i_sadd {c : Cfg} {s : St} (h : Inv c s) {ts v : Nat} {m' : Mem Loc Acc} {o : Ord} {i : Nat} (hi : i < c.n) (hf0 : s.f = .idle) (hp : s.st i = .idle) (hm : s.m.rmw conf o (i + 2) .cnt ts (· + 1) (use ((i + 2))) = some (v, m')) : Inv c { s with m := m', kc := ts + 1, st := upd s.st i .push, started := s.started + 1 } := by
  obtain ⟨c1, c2, c3, c4, c5, c6, c7, c8⟩ := h.ctl
  obtain ⟨v1, v2, v3, v4, v5, v6, v7, v8, v9, v10, v11, v12, v13, v14, v15, v16⟩ := h.v
  obtain ⟨w1, w2, w3, w4⟩ := h.w
  obtain ⟨k1, k2, k3, k4, k5, k6, k7, k8⟩ := h.k
  have hq : s.m.racy conf (i + 2) (use (i + 2)) = false := by
    rw [racy_false]; intro i' b hi' hc
    have e := k3 i' b hi'
    exfalso
    have e2 : s.r = .gone := by
      cases hb : b.what with
      | use => simp [conf, hb] at hc
      | destroy => exact e hb
    have e3 := c7 (Or.inr e2)
    simp_all
  obtain ⟨g, t1, t2, t3, t4, t5, t6, t7, t8, t9, t10, g', t11, t12, t13, t14⟩ := rmw_spec hm
  have hts : ts = s.kc := by
    rcases Nat.lt_trichotomy ts s.kc with hl | hl | hl
    · exact absurd t4 (v2 (ts + 1) hl)
    · exact hl
    · rw [v1 _ hl] at t1; cases t1
  subst hts
  have hlog := fun k b => logged_snoc t5 k b
  have hlt := logged_lt s.m
  have hr : m'.race = false := by rw [t6, h.noRace, hq]; rfl
  clear h
  have mono : ∀ u k, (s.m.cur u).know k = true → (m'.cur u).know k = true := fun u k hk => by
    by_cases hu : u = i + 2
    · rw [hu, t8]; rw [hu] at hk; rw [hk]; rfl
    · rw [t7 u hu]; exact hk
  have hself : (m'.cur (i + 2)).know s.m.log.length = true := by rw [t8]; simp
  have hacq : o.isAcq = true → ∀ k, g.view.know k = true → (m'.cur (i + 2)).know k = true := fun ho k hk => by rw [t8, hk, ho]; simp
  have hrel : o.isRel = true → ∀ k, (m'.cur (i + 2)).know k = true → g'.view.know k = true := fun ho k hk => by rw [t13, hk, ho]; simp
  have hch : ∀ k, g.view.know k = true → g'.view.know k = true := fun k hk => by rw [t13, hk]; rfl
  have hsn : ∀ u x, (s.m.cur u).seen x ≤ (m'.cur u).seen x := fun u x => by
    by_cases hu : u = i + 2
    · subst hu; rw [t9]
      by_cases hx : x = .cnt
      · rw [if_pos hx]; rw [hx]; omega
      · rw [if_neg hx]; omega
    · rw [t7 u hu]; exact Nat.le_refl _
  have hsl : s.kc + 1 ≤ (m'.cur (i + 2)).seen .cnt := by rw [t9, if_pos rfl]; omega
  have hsa : o.isAcq = true → ∀ x, g.view.seen x ≤ (m'.cur (i + 2)).seen x := fun ho x => by rw [t9, if_pos ho]; omega
  have hsr : o.isRel = true → ∀ x, (m'.cur (i + 2)).seen x ≤ g'.view.seen x := fun ho x => by rw [t14, if_pos ho]; omega
  have hsc : ∀ x, g.view.seen x ≤ g'.view.seen x := fun x => by rw [t14]; omega
  have hf : ∀ j, j ≠ s.kc + 1 → m'.hist .cnt j = s.m.hist .cnt j := fun j hj => t10 _ _ (fun e => hj e.2)
  have hg : ∀ x j, x ≠ .cnt → m'.hist x j = s.m.hist x j := fun x j hx => t10 _ _ (fun e => hx e.1)
  have hg1 := fun j => hg .fin j (by decide)
  have hg2 := fun j => hg .q j (by decide)
  clear t5 t6 t7 t8 t9 t10 t13 t14 hm hq hg
  generalize hs' : ({ s with m := m', kc := s.kc + 1, st := upd s.st i .push, started := s.started + 1 } : St) = s'
  have n0 : s'.m = m' := by rw [← hs']
  have n1 : s'.st = upd s.st i .push := by rw [← hs']
  have n2 : s'.f = s.f := by rw [← hs']
  have n3 : s'.r = s.r := by rw [← hs']
  have n4 : s'.drain = s.drain := by rw [← hs']
  have n5 : s'.b = s.b := by rw [← hs']
  have n6 : s'.left = s.left := by rw [← hs']
  have n7 : s'.nest = s.nest := by rw [← hs']
  have n8 : s'.started = s.started + 1 := by rw [← hs']
  have n9 : s'.ran = s.ran := by rw [← hs']
  have n10 : s'.kc = s.kc + 1 := by rw [← hs']
  have n11 : s'.kf = s.kf := by rw [← hs']
  have n12 : s'.kq = s.kq := by rw [← hs']
  have n13 : s'.nq = s.nq := by rw [← hs']
  have n14 : s'.p2 = s.p2 := by rw [← hs']
  have hn := np_add (c := c) hi (by simp [hp]) n1
  clear hs'
  refine ⟨?_, ?_, ?_, ?_, by rw [n0]; exact hr⟩
  · clear k1 k2 k3 k4 k5 k6 k7 k8 w1 w2 w3 w4
    constructor
    case out => intro j hj; rw [n1]; rw [upd_other _ _ (by omega)]; exact c8 j hj
    all_goals grind [fw, fb]
  · clear k1 k2 k3 k4 k5 k6 k7 k8 w1 w2 w3 w4
    constructor
    all_goals grind [fw, fb]
  · clear k1 k2 k3 k4 k5 k6 k7 k8
    constructor
    all_goals grind [fw, fb]
  · clear v8 v9 v12 v13 v14 v15 v16 w1 w2 w3 w4
    constructor
    case who => intro j a hl h2; rw [n1]; by_cases e : a.who - 2 = i
                · rw [e, upd_same]; simp
                · rw [upd_other _ _ e]; rw [n0] at hl; rcases (hlog j a).mp hl with hl | ⟨_, rfl⟩
                  · exact k2 j a hl h2
                  · exact absurd (by simp) e
    case kq =>
      intro j a g2 hl h2 hd hg2_
      rw [n0] at hl hg2_
      rw [n12] at hg2_
      rw [n1] at hd
      have e : a.who - 2 ≠ i := by intro e; rw [e, upd_same] at hd; cases hd
      rw [upd_other _ _ e] at hd
      rcases (hlog j a).mp hl with hl | ⟨_, rfl⟩
      · exact k4 j a g2 hl h2 hd (by rw [← hg2 s.kq]; exact hg2_)
      · exact absurd (by simp) e
    case k0 =>
      intro j a hl h2 hd hn0
      rw [n0] at hl ⊢
      rw [n13] at hn0
      rw [n1] at hd
      have e : a.who - 2 ≠ i := by intro e; rw [e, upd_same] at hd; cases hd
      rw [upd_other _ _ e] at hd
      rcases (hlog j a).mp hl with hl | ⟨_, rfl⟩
      · exact mono _ _ (k5 j a hl h2 hd hn0)
      · exact absurd (by simp) e
    all_goals grind [fw, fb]

set_option maxHeartbeats 8000000 in
theorem i_spush {c : Cfg} {s : St} (h : Inv c s) {ts v : Nat} {m' : Mem Loc Acc} {o : Ord} {i : Nat} (ho : o.isRel = true) (hi : i < c.n) (hp : s.st i = .push) (hm : s.m.rmw conf o (i + 2) .q ts (· + 1) (use ((i + 2))) = some (v, m')) : Inv c { s with m := m', kq := ts + 1, nq := s.nq + 1, st := upd s.st i .done } := by
  obtain ⟨c1, c2, c3, c4, c5, c6, c7, c8⟩ := h.ctl
  obtain ⟨v1, v2, v3, v4, v5, v6, v7, v8, v9, v10, v11, v12, v13, v14, v15, v16⟩ := h.v
  obtain ⟨w1, w2, w3, w4⟩ := h.w
  obtain ⟨k1, k2, k3, k4, k5, k6, k7, k8⟩ := h.k
  have hq : s.m.racy conf (i + 2) (use (i + 2)) = false := by
    rw [racy_false]; intro i' b hi' hc
    have e := k3 i' b hi'
    exfalso
    have e2 : s.r = .gone := by
      cases hb : b.what with
      | use => simp [conf, hb] at hc
      | destroy => exact e hb
    have e3 := (c7 (Or.inr e2)).2.2
    simp only [np] at e3; rw [cnt_zero_iff] at e3; have := e3 i hi; simp_all
  obtain ⟨g, t1, t2, t3, t4, t5, t6, t7, t8, t9, t10, g', t11, t12, t13, t14⟩ := rmw_spec hm
  have hts : ts = s.kq := by
    rcases Nat.lt_trichotomy ts s.kq with hl | hl | hl
    · exact absurd t4 (v4 (ts + 1) hl)
    · exact hl
    · rw [v3 _ hl] at t1; cases t1
  subst hts
  have hlog := fun k b => logged_snoc t5 k b
  have hlt := logged_lt s.m
  have hr : m'.race = false := by rw [t6, h.noRace, hq]; rfl
  clear h
  have mono : ∀ u k, (s.m.cur u).know k = true → (m'.cur u).know k = true := fun u k hk => by
    by_cases hu : u = i + 2
    · rw [hu, t8]; rw [hu] at hk; rw [hk]; rfl
    · rw [t7 u hu]; exact hk
  have hself : (m'.cur (i + 2)).know s.m.log.length = true := by rw [t8]; simp
  have hacq : o.isAcq = true → ∀ k, g.view.know k = true → (m'.cur (i + 2)).know k = true := fun ho k hk => by rw [t8, hk, ho]; simp
  have hrel : o.isRel = true → ∀ k, (m'.cur (i + 2)).know k = true → g'.view.know k = true := fun ho k hk => by rw [t13, hk, ho]; simp
  have hch : ∀ k, g.view.know k = true → g'.view.know k = true := fun k hk => by rw [t13, hk]; rfl
  have hsn : ∀ u x, (s.m.cur u).seen x ≤ (m'.cur u).seen x := fun u x => by
    by_cases hu : u = i + 2
    · subst hu; rw [t9]
      by_cases hx : x = .q
      · rw [if_pos hx]; rw [hx]; omega
      · rw [if_neg hx]; omega
    · rw [t7 u hu]; exact Nat.le_refl _
  have hsl : s.kq + 1 ≤ (m'.cur (i + 2)).seen .q := by rw [t9, if_pos rfl]; omega
  have hsa : o.isAcq = true → ∀ x, g.view.seen x ≤ (m'.cur (i + 2)).seen x := fun ho x => by rw [t9, if_pos ho]; omega
  have hsr : o.isRel = true → ∀ x, (m'.cur (i + 2)).seen x ≤ g'.view.seen x := fun ho x => by rw [t14, if_pos ho]; omega
  have hsc : ∀ x, g.view.seen x ≤ g'.view.seen x := fun x => by rw [t14]; omega
  have hf : ∀ j, j ≠ s.kq + 1 → m'.hist .q j = s.m.hist .q j := fun j hj => t10 _ _ (fun e => hj e.2)
  have hg : ∀ x j, x ≠ .q → m'.hist x j = s.m.hist x j := fun x j hx => t10 _ _ (fun e => hx e.1)
  have hg0 := fun j => hg .cnt j (by decide)
  have hg1 := fun j => hg .fin j (by decide)
  clear t5 t6 t7 t8 t9 t10 t13 t14 hm hq hg
  generalize hs' : ({ s with m := m', kq := s.kq + 1, nq := s.nq + 1, st := upd s.st i .done } : St) = s'
  have n0 : s'.m = m' := by rw [← hs']
  have n1 : s'.st = upd s.st i .done := by rw [← hs']
  have n2 : s'.f = s.f := by rw [← hs']
  have n3 : s'.r = s.r := by rw [← hs']
  have n4 : s'.drain = s.drain := by rw [← hs']
  have n5 : s'.b = s.b := by rw [← hs']
  have n6 : s'.left = s.left := by rw [← hs']
  have n7 : s'.nest = s.nest := by rw [← hs']
  have n8 : s'.started = s.started := by rw [← hs']
  have n9 : s'.ran = s.ran := by rw [← hs']
  have n10 : s'.kc = s.kc := by rw [← hs']
  have n11 : s'.kf = s.kf := by rw [← hs']
  have n12 : s'.kq = s.kq + 1 := by rw [← hs']
  have n13 : s'.nq = s.nq + 1 := by rw [← hs']
  have n14 : s'.p2 = s.p2 := by rw [← hs']
  have hn := np_sub (c := c) hi hp n1
  clear hs'
  refine ⟨?_, ?_, ?_, ?_, by rw [n0]; exact hr⟩
  · clear k1 k2 k3 k4 k5 k6 k7 k8 w1 w2 w3 w4
    constructor
    case out => intro j hj; rw [n1]; rw [upd_other _ _ (by omega)]; exact c8 j hj
    all_goals grind [fw, fb]
  · clear k1 k2 k3 k4 k5 k6 k7 k8 w1 w2 w3 w4
    constructor
    all_goals grind [fw, fb]
  · clear k1 k2 k3 k4 k5 k6 k7 k8
    constructor
    all_goals grind [fw, fb]
  · clear v8 v9 v12 v13 v14 v15 v16 w1 w2 w3 w4
    constructor
    case who => intro j a hl h2; rw [n1]; by_cases e : a.who - 2 = i
                · rw [e, upd_same]; simp
                · rw [upd_other _ _ e]; rw [n0] at hl; rcases (hlog j a).mp hl with hl | ⟨_, rfl⟩
                  · exact k2 j a hl h2
                  · exact absurd (by simp) e
    case kq =>
      intro j a g2 hl h2 hd hg2_
      rw [n0] at hl hg2_
      rw [n12, t11] at hg2_
      cases hg2_
      rw [n1] at hd
      by_cases e : a.who - 2 = i
      · have e2 : a.who = i + 2 := by omega
        refine hrel ho j ?_
        rcases (hlog j a).mp hl with hl | ⟨rfl, rfl⟩
        · exact mono _ _ (e2 ▸ k1 j a hl)
        · exact hself
      · rw [upd_other _ _ e] at hd
        rcases (hlog j a).mp hl with hl | ⟨_, rfl⟩
        · exact hch j (k4 j a g hl h2 hd t1)
        · exact absurd (by simp) e
    all_goals grind [fw, fb]

set_option maxHeartbeats 8000000 in
theorem i_fadd {c : Cfg} {s : St} (h : Inv c s) {ts v : Nat} {m' : Mem Loc Acc} {o : Ord} (hp : s.f = .idle) (hm : s.m.rmw conf o 1 .cnt ts (· + 2) (use (1)) = some (v, m')) : Inv c { s with m := m', kc := ts + 1, p2 := ts + 1, f := .exch } := by
  obtain ⟨c1, c2, c3, c4, c5, c6, c7, c8⟩ := h.ctl
  obtain ⟨v1, v2, v3, v4, v5, v6, v7, v8, v9, v10, v11, v12, v13, v14, v15, v16⟩ := h.v
  obtain ⟨w1, w2, w3, w4⟩ := h.w
  obtain ⟨k1, k2, k3, k4, k5, k6, k7, k8⟩ := h.k
  have hq : s.m.racy conf (1) (use (1)) = false := by
    rw [racy_false]; intro i' b hi' hc
    have e := k3 i' b hi'
    exfalso
    have e2 : s.r = .gone := by
      cases hb : b.what with
      | use => simp [conf, hb] at hc
      | destroy => exact e hb
    have e3 := c7 (Or.inr e2)
    simp_all
  obtain ⟨g, t1, t2, t3, t4, t5, t6, t7, t8, t9, t10, g', t11, t12, t13, t14⟩ := rmw_spec hm
  have hts : ts = s.kc := by
    rcases Nat.lt_trichotomy ts s.kc with hl | hl | hl
    · exact absurd t4 (v2 (ts + 1) hl)
    · exact hl
    · rw [v1 _ hl] at t1; cases t1
  subst hts
  have hlog := fun k b => logged_snoc t5 k b
  have hlt := logged_lt s.m
  have hr : m'.race = false := by rw [t6, h.noRace, hq]; rfl
  clear h
  have mono : ∀ u k, (s.m.cur u).know k = true → (m'.cur u).know k = true := fun u k hk => by
    by_cases hu : u = 1
    · rw [hu, t8]; rw [hu] at hk; rw [hk]; rfl
    · rw [t7 u hu]; exact hk
  have hself : (m'.cur (1)).know s.m.log.length = true := by rw [t8]; simp
  have hacq : o.isAcq = true → ∀ k, g.view.know k = true → (m'.cur (1)).know k = true := fun ho k hk => by rw [t8, hk, ho]; simp
  have hrel : o.isRel = true → ∀ k, (m'.cur (1)).know k = true → g'.view.know k = true := fun ho k hk => by rw [t13, hk, ho]; simp
  have hch : ∀ k, g.view.know k = true → g'.view.know k = true := fun k hk => by rw [t13, hk]; rfl
  have hsn : ∀ u x, (s.m.cur u).seen x ≤ (m'.cur u).seen x := fun u x => by
    by_cases hu : u = 1
    · subst hu; rw [t9]
      by_cases hx : x = .cnt
      · rw [if_pos hx]; rw [hx]; omega
      · rw [if_neg hx]; omega
    · rw [t7 u hu]; exact Nat.le_refl _
  have hsl : s.kc + 1 ≤ (m'.cur (1)).seen .cnt := by rw [t9, if_pos rfl]; omega
  have hsa : o.isAcq = true → ∀ x, g.view.seen x ≤ (m'.cur (1)).seen x := fun ho x => by rw [t9, if_pos ho]; omega
  have hsr : o.isRel = true → ∀ x, (m'.cur (1)).seen x ≤ g'.view.seen x := fun ho x => by rw [t14, if_pos ho]; omega
  have hsc : ∀ x, g.view.seen x ≤ g'.view.seen x := fun x => by rw [t14]; omega
  have hf : ∀ j, j ≠ s.kc + 1 → m'.hist .cnt j = s.m.hist .cnt j := fun j hj => t10 _ _ (fun e => hj e.2)
  have hg : ∀ x j, x ≠ .cnt → m'.hist x j = s.m.hist x j := fun x j hx => t10 _ _ (fun e => hx e.1)
  have hg1 := fun j => hg .fin j (by decide)
  have hg2 := fun j => hg .q j (by decide)
  clear t5 t6 t7 t8 t9 t10 t13 t14 hm hq hg
  generalize hs' : ({ s with m := m', kc := s.kc + 1, p2 := s.kc + 1, f := .exch } : St) = s'
  have n0 : s'.m = m' := by rw [← hs']
  have n1 : s'.st = s.st := by rw [← hs']
  have n2 : s'.f = .exch := by rw [← hs']
  have n3 : s'.r = s.r := by rw [← hs']
  have n4 : s'.drain = s.drain := by rw [← hs']
  have n5 : s'.b = s.b := by rw [← hs']
  have n6 : s'.left = s.left := by rw [← hs']
  have n7 : s'.nest = s.nest := by rw [← hs']
  have n8 : s'.started = s.started := by rw [← hs']
  have n9 : s'.ran = s.ran := by rw [← hs']
  have n10 : s'.kc = s.kc + 1 := by rw [← hs']
  have n11 : s'.kf = s.kf := by rw [← hs']
  have n12 : s'.kq = s.kq := by rw [← hs']
  have n13 : s'.nq = s.nq := by rw [← hs']
  have n14 : s'.p2 = s.kc + 1 := by rw [← hs']
  have hn := np_eq (c := c) n1
  clear hs'
  refine ⟨?_, ?_, ?_, ?_, by rw [n0]; exact hr⟩
  · clear k1 k2 k3 k4 k5 k6 k7 k8 w1 w2 w3 w4
    constructor
    all_goals grind [fw, fb]
  · clear k1 k2 k3 k4 k5 k6 k7 k8 w1 w2 w3 w4
    constructor
    all_goals grind [fw, fb]
  · clear k1 k2 k3 k4 k5 k6 k7 k8
    constructor
    all_goals grind [fw, fb]
  · clear v8 v9 v12 v13 v14 v15 v16 w1 w2 w3 w4
    constructor
    all_goals grind [fw, fb]

set_option maxHeartbeats 8000000 in
theorem i_fx {c : Cfg} {s : St} (h : Inv c s) {ts v : Nat} {m' : Mem Loc Acc} {o : Ord} (ho : o.isRel = true) (hp : s.f = .exch) (hm : s.m.rmw conf o 1 .fin ts (fun _ => 1) (use (1)) = some (v, m')) : Inv c { s with m := m', kf := ts + 1, f := .push } := by
  obtain ⟨c1, c2, c3, c4, c5, c6, c7, c8⟩ := h.ctl
  obtain ⟨v1, v2, v3, v4, v5, v6, v7, v8, v9, v10, v11, v12, v13, v14, v15, v16⟩ := h.v
  obtain ⟨w1, w2, w3, w4⟩ := h.w
  obtain ⟨k1, k2, k3, k4, k5, k6, k7, k8⟩ := h.k
  have hq : s.m.racy conf (1) (use (1)) = false := by
    rw [racy_false]; intro i' b hi' hc
    have e := k3 i' b hi'
    exfalso
    have e2 : s.r = .gone := by
      cases hb : b.what with
      | use => simp [conf, hb] at hc
      | destroy => exact e hb
    have e3 := c7 (Or.inr e2)
    simp_all
  obtain ⟨g, t1, t2, t3, t4, t5, t6, t7, t8, t9, t10, g', t11, t12, t13, t14⟩ := rmw_spec hm
  have hts : ts = s.kf := by
    rcases Nat.lt_trichotomy ts s.kf with hl | hl | hl
    · exact absurd t4 (v6 (ts + 1) hl)
    · exact hl
    · rw [v5 _ hl] at t1; cases t1
  subst hts
  have hlog := fun k b => logged_snoc t5 k b
  have hlt := logged_lt s.m
  have hr : m'.race = false := by rw [t6, h.noRace, hq]; rfl
  clear h
  have mono : ∀ u k, (s.m.cur u).know k = true → (m'.cur u).know k = true := fun u k hk => by
    by_cases hu : u = 1
    · rw [hu, t8]; rw [hu] at hk; rw [hk]; rfl
    · rw [t7 u hu]; exact hk
  have hself : (m'.cur (1)).know s.m.log.length = true := by rw [t8]; simp
  have hacq : o.isAcq = true → ∀ k, g.view.know k = true → (m'.cur (1)).know k = true := fun ho k hk => by rw [t8, hk, ho]; simp
  have hrel : o.isRel = true → ∀ k, (m'.cur (1)).know k = true → g'.view.know k = true := fun ho k hk => by rw [t13, hk, ho]; simp
  have hch : ∀ k, g.view.know k = true → g'.view.know k = true := fun k hk => by rw [t13, hk]; rfl
  have hsn : ∀ u x, (s.m.cur u).seen x ≤ (m'.cur u).seen x := fun u x => by
    by_cases hu : u = 1
    · subst hu; rw [t9]
      by_cases hx : x = .fin
      · rw [if_pos hx]; rw [hx]; omega
      · rw [if_neg hx]; omega
    · rw [t7 u hu]; exact Nat.le_refl _
  have hsl : s.kf + 1 ≤ (m'.cur (1)).seen .fin := by rw [t9, if_pos rfl]; omega
  have hsa : o.isAcq = true → ∀ x, g.view.seen x ≤ (m'.cur (1)).seen x := fun ho x => by rw [t9, if_pos ho]; omega
  have hsr : o.isRel = true → ∀ x, (m'.cur (1)).seen x ≤ g'.view.seen x := fun ho x => by rw [t14, if_pos ho]; omega
  have hsc : ∀ x, g.view.seen x ≤ g'.view.seen x := fun x => by rw [t14]; omega
  have hf : ∀ j, j ≠ s.kf + 1 → m'.hist .fin j = s.m.hist .fin j := fun j hj => t10 _ _ (fun e => hj e.2)
  have hg : ∀ x j, x ≠ .fin → m'.hist x j = s.m.hist x j := fun x j hx => t10 _ _ (fun e => hx e.1)
  have hg0 := fun j => hg .cnt j (by decide)
  have hg2 := fun j => hg .q j (by decide)
  clear t5 t6 t7 t8 t9 t10 t13 t14 hm hq hg
  generalize hs' : ({ s with m := m', kf := s.kf + 1, f := .push } : St) = s'
  have n0 : s'.m = m' := by rw [← hs']
  have n1 : s'.st = s.st := by rw [← hs']
  have n2 : s'.f = .push := by rw [← hs']
  have n3 : s'.r = s.r := by rw [← hs']
  have n4 : s'.drain = s.drain := by rw [← hs']
  have n5 : s'.b = s.b := by rw [← hs']
  have n6 : s'.left = s.left := by rw [← hs']
  have n7 : s'.nest = s.nest := by rw [← hs']
  have n8 : s'.started = s.started := by rw [← hs']
  have n9 : s'.ran = s.ran := by rw [← hs']
  have n10 : s'.kc = s.kc := by rw [← hs']
  have n11 : s'.kf = s.kf + 1 := by rw [← hs']
  have n12 : s'.kq = s.kq := by rw [← hs']
  have n13 : s'.nq = s.nq := by rw [← hs']
  have n14 : s'.p2 = s.p2 := by rw [← hs']
  have hn := np_eq (c := c) n1
  clear hs'
  refine ⟨?_, ?_, ?_, ?_, by rw [n0]; exact hr⟩
  · clear k1 k2 k3 k4 k5 k6 k7 k8 w1 w2 w3 w4
    constructor
    all_goals grind [fw, fb]
  · clear k1 k2 k3 k4 k5 k6 k7 k8 w1 w2 w3 w4
    constructor
    all_goals grind [fw, fb]
  · clear k1 k2 k3 k4 k5 k6 k7 k8
    constructor
    all_goals grind [fw, fb]
  · clear v8 v9 v12 v13 v14 v15 v16 w1 w2 w3 w4
    constructor
    all_goals grind [fw, fb]

set_option maxHeartbeats 8000000 in
theorem i_fpush {c : Cfg} {s : St} (h : Inv c s) {ts v : Nat} {m' : Mem Loc Acc} {o : Ord} (ho : o.isRel = true) (hp : s.f = .push) (hm : s.m.rmw conf o 1 .q ts (· + 1) (use (1)) = some (v, m')) : Inv c { s with m := m', kq := ts + 1, nq := s.nq + 1, f := .note } := by
  obtain ⟨c1, c2, c3, c4, c5, c6, c7, c8⟩ := h.ctl
  obtain ⟨v1, v2, v3, v4, v5, v6, v7, v8, v9, v10, v11, v12, v13, v14, v15, v16⟩ := h.v
  obtain ⟨w1, w2, w3, w4⟩ := h.w
  obtain ⟨k1, k2, k3, k4, k5, k6, k7, k8⟩ := h.k
  have hq : s.m.racy conf (1) (use (1)) = false := by
    rw [racy_false]; intro i' b hi' hc
    have e := k3 i' b hi'
    exfalso
    have e2 : s.r = .gone := by
      cases hb : b.what with
      | use => simp [conf, hb] at hc
      | destroy => exact e hb
    have e3 := c7 (Or.inr e2)
    simp_all
  obtain ⟨g, t1, t2, t3, t4, t5, t6, t7, t8, t9, t10, g', t11, t12, t13, t14⟩ := rmw_spec hm
  have hts : ts = s.kq := by
    rcases Nat.lt_trichotomy ts s.kq with hl | hl | hl
    · exact absurd t4 (v4 (ts + 1) hl)
    · exact hl
    · rw [v3 _ hl] at t1; cases t1
  subst hts
  have hlog := fun k b => logged_snoc t5 k b
  have hlt := logged_lt s.m
  have hr : m'.race = false := by rw [t6, h.noRace, hq]; rfl
  clear h
  have mono : ∀ u k, (s.m.cur u).know k = true → (m'.cur u).know k = true := fun u k hk => by
    by_cases hu : u = 1
    · rw [hu, t8]; rw [hu] at hk; rw [hk]; rfl
    · rw [t7 u hu]; exact hk
  have hself : (m'.cur (1)).know s.m.log.length = true := by rw [t8]; simp
  have hacq : o.isAcq = true → ∀ k, g.view.know k = true → (m'.cur (1)).know k = true := fun ho k hk => by rw [t8, hk, ho]; simp
  have hrel : o.isRel = true → ∀ k, (m'.cur (1)).know k = true → g'.view.know k = true := fun ho k hk => by rw [t13, hk, ho]; simp
  have hch : ∀ k, g.view.know k = true → g'.view.know k = true := fun k hk => by rw [t13, hk]; rfl
  have hsn : ∀ u x, (s.m.cur u).seen x ≤ (m'.cur u).seen x := fun u x => by
    by_cases hu : u = 1
    · subst hu; rw [t9]
      by_cases hx : x = .q
      · rw [if_pos hx]; rw [hx]; omega
      · rw [if_neg hx]; omega
    · rw [t7 u hu]; exact Nat.le_refl _
  have hsl : s.kq + 1 ≤ (m'.cur (1)).seen .q := by rw [t9, if_pos rfl]; omega
  have hsa : o.isAcq = true → ∀ x, g.view.seen x ≤ (m'.cur (1)).seen x := fun ho x => by rw [t9, if_pos ho]; omega
  have hsr : o.isRel = true → ∀ x, (m'.cur (1)).seen x ≤ g'.view.seen x := fun ho x => by rw [t14, if_pos ho]; omega
  have hsc : ∀ x, g.view.seen x ≤ g'.view.seen x := fun x => by rw [t14]; omega
  have hf : ∀ j, j ≠ s.kq + 1 → m'.hist .q j = s.m.hist .q j := fun j hj => t10 _ _ (fun e => hj e.2)
  have hg : ∀ x j, x ≠ .q → m'.hist x j = s.m.hist x j := fun x j hx => t10 _ _ (fun e => hx e.1)
  have hg0 := fun j => hg .cnt j (by decide)
  have hg1 := fun j => hg .fin j (by decide)
  clear t5 t6 t7 t8 t9 t10 t13 t14 hm hq hg
  generalize hs' : ({ s with m := m', kq := s.kq + 1, nq := s.nq + 1, f := .note } : St) = s'
  have n0 : s'.m = m' := by rw [← hs']
  have n1 : s'.st = s.st := by rw [← hs']
  have n2 : s'.f = .note := by rw [← hs']
  have n3 : s'.r = s.r := by rw [← hs']
  have n4 : s'.drain = s.drain := by rw [← hs']
  have n5 : s'.b = s.b := by rw [← hs']
  have n6 : s'.left = s.left := by rw [← hs']
  have n7 : s'.nest = s.nest := by rw [← hs']
  have n8 : s'.started = s.started := by rw [← hs']
  have n9 : s'.ran = s.ran := by rw [← hs']
  have n10 : s'.kc = s.kc := by rw [← hs']
  have n11 : s'.kf = s.kf := by rw [← hs']
  have n12 : s'.kq = s.kq + 1 := by rw [← hs']
  have n13 : s'.nq = s.nq + 1 := by rw [← hs']
  have n14 : s'.p2 = s.p2 := by rw [← hs']
  have hn := np_eq (c := c) n1
  clear hs'
  refine ⟨?_, ?_, ?_, ?_, by rw [n0]; exact hr⟩
  · clear k1 k2 k3 k4 k5 k6 k7 k8 w1 w2 w3 w4
    constructor
    all_goals grind [fw, fb]
  · clear k1 k2 k3 k4 k5 k6 k7 k8 w1 w2 w3 w4
    constructor
    all_goals grind [fw, fb]
  · clear k1 k2 k3 k4 k5 k6 k7 k8
    constructor
    all_goals grind [fw, fb]
  · clear v8 v9 v12 v13 v14 v15 v16 w1 w2 w3 w4
    constructor
    all_goals grind [fw, fb]

set_option maxHeartbeats 8000000 in
theorem i_fnote {c : Cfg} {s : St} (h : Inv c s) (hp : s.f = .note) : Inv c { s with m := s.m.touch conf 1 (use 1), f := .sub } := by
  obtain ⟨c1, c2, c3, c4, c5, c6, c7, c8⟩ := h.ctl
  obtain ⟨v1, v2, v3, v4, v5, v6, v7, v8, v9, v10, v11, v12, v13, v14, v15, v16⟩ := h.v
  obtain ⟨w1, w2, w3, w4⟩ := h.w
  obtain ⟨k1, k2, k3, k4, k5, k6, k7, k8⟩ := h.k
  have hq : s.m.racy conf (1) (use (1)) = false := by
    rw [racy_false]; intro i' b hi' hc
    have e := k3 i' b hi'
    exfalso
    have e2 : s.r = .gone := by
      cases hb : b.what with
      | use => simp [conf, hb] at hc
      | destroy => exact e hb
    have e3 := c7 (Or.inr e2)
    simp_all
  obtain ⟨t1, t2, t3, t4, t5, t6⟩ := touch_spec conf s.m (1) ⟨1, .use⟩
  have hlog := fun k b => logged_snoc t2 k b
  have hlt := logged_lt s.m
  have hr : (s.m.touch conf (1) ⟨1, .use⟩).race = false := by rw [t3, h.noRace, hq]; rfl
  clear h
  try simp only [use]
  generalize s.m.touch conf (1) ⟨1, .use⟩ = m' at *
  have hh : ∀ l j, m'.hist l j = s.m.hist l j := fun l j => by rw [t1]
  have mono : ∀ u k, (s.m.cur u).know k = true → (m'.cur u).know k = true := fun u k hk => by
    by_cases hu : u = 1
    · rw [hu, t5]; rw [hu] at hk; rw [hk]; rfl
    · rw [t4 u hu]; exact hk
  have hself : (m'.cur (1)).know s.m.log.length = true := by rw [t5]; simp
  have hsn : ∀ u x, (m'.cur u).seen x = (s.m.cur u).seen x := fun u x => by
    by_cases hu : u = 1
    · rw [hu, t6]
    · rw [t4 u hu]
  clear t1 t2 t3 t4 t5 t6 hq
  generalize hs' : ({ s with m := m', f := .sub } : St) = s'
  have n0 : s'.m = m' := by rw [← hs']
  have n1 : s'.st = s.st := by rw [← hs']
  have n2 : s'.f = .sub := by rw [← hs']
  have n3 : s'.r = s.r := by rw [← hs']
  have n4 : s'.drain = s.drain := by rw [← hs']
  have n5 : s'.b = s.b := by rw [← hs']
  have n6 : s'.left = s.left := by rw [← hs']
  have n7 : s'.nest = s.nest := by rw [← hs']
  have n8 : s'.started = s.started := by rw [← hs']
  have n9 : s'.ran = s.ran := by rw [← hs']
  have n10 : s'.kc = s.kc := by rw [← hs']
  have n11 : s'.kf = s.kf := by rw [← hs']
  have n12 : s'.kq = s.kq := by rw [← hs']
  have n13 : s'.nq = s.nq := by rw [← hs']
  have n14 : s'.p2 = s.p2 := by rw [← hs']
  have hn := np_eq (c := c) n1
  clear hs'
  refine ⟨?_, ?_, ?_, ?_, by rw [n0]; exact hr⟩
  · clear k1 k2 k3 k4 k5 k6 k7 k8 w1 w2 w3 w4
    constructor
    all_goals grind [fw, fb]
  · clear k1 k2 k3 k4 k5 k6 k7 k8 w1 w2 w3 w4
    constructor
    all_goals grind [fw, fb]
  · clear k1 k2 k3 k4 k5 k6 k7 k8
    constructor
    all_goals grind [fw, fb]
  · clear v8 v9 v12 v13 v14 v15 v16 w1 w2 w3 w4
    constructor
    all_goals grind [fw, fb]

set_option maxHeartbeats 8000000 in
theorem i_fsub {c : Cfg} {s : St} (h : Inv c s) {ts v : Nat} {m' : Mem Loc Acc} {o : Ord} (ho : o.isRel = true) (hp : s.f = .sub) (hm : s.m.rmw conf o 1 .cnt ts (· - 1) (use (1)) = some (v, m')) : Inv c { s with m := m', kc := ts + 1, f := .done } := by
  obtain ⟨c1, c2, c3, c4, c5, c6, c7, c8⟩ := h.ctl
  obtain ⟨v1, v2, v3, v4, v5, v6, v7, v8, v9, v10, v11, v12, v13, v14, v15, v16⟩ := h.v
  obtain ⟨w1, w2, w3, w4⟩ := h.w
  obtain ⟨k1, k2, k3, k4, k5, k6, k7, k8⟩ := h.k
  have hq : s.m.racy conf (1) (use (1)) = false := by
    rw [racy_false]; intro i' b hi' hc
    have e := k3 i' b hi'
    exfalso
    have e2 : s.r = .gone := by
      cases hb : b.what with
      | use => simp [conf, hb] at hc
      | destroy => exact e hb
    have e3 := c7 (Or.inr e2)
    simp_all
  obtain ⟨g, t1, t2, t3, t4, t5, t6, t7, t8, t9, t10, g', t11, t12, t13, t14⟩ := rmw_spec hm
  have hts : ts = s.kc := by
    rcases Nat.lt_trichotomy ts s.kc with hl | hl | hl
    · exact absurd t4 (v2 (ts + 1) hl)
    · exact hl
    · rw [v1 _ hl] at t1; cases t1
  subst hts
  have hlog := fun k b => logged_snoc t5 k b
  have hlt := logged_lt s.m
  have hr : m'.race = false := by rw [t6, h.noRace, hq]; rfl
  clear h
  have mono : ∀ u k, (s.m.cur u).know k = true → (m'.cur u).know k = true := fun u k hk => by
    by_cases hu : u = 1
    · rw [hu, t8]; rw [hu] at hk; rw [hk]; rfl
    · rw [t7 u hu]; exact hk
  have hself : (m'.cur (1)).know s.m.log.length = true := by rw [t8]; simp
  have hacq : o.isAcq = true → ∀ k, g.view.know k = true → (m'.cur (1)).know k = true := fun ho k hk => by rw [t8, hk, ho]; simp
  have hrel : o.isRel = true → ∀ k, (m'.cur (1)).know k = true → g'.view.know k = true := fun ho k hk => by rw [t13, hk, ho]; simp
  have hch : ∀ k, g.view.know k = true → g'.view.know k = true := fun k hk => by rw [t13, hk]; rfl
  have hsn : ∀ u x, (s.m.cur u).seen x ≤ (m'.cur u).seen x := fun u x => by
    by_cases hu : u = 1
    · subst hu; rw [t9]
      by_cases hx : x = .cnt
      · rw [if_pos hx]; rw [hx]; omega
      · rw [if_neg hx]; omega
    · rw [t7 u hu]; exact Nat.le_refl _
  have hsl : s.kc + 1 ≤ (m'.cur (1)).seen .cnt := by rw [t9, if_pos rfl]; omega
  have hsa : o.isAcq = true → ∀ x, g.view.seen x ≤ (m'.cur (1)).seen x := fun ho x => by rw [t9, if_pos ho]; omega
  have hsr : o.isRel = true → ∀ x, (m'.cur (1)).seen x ≤ g'.view.seen x := fun ho x => by rw [t14, if_pos ho]; omega
  have hsc : ∀ x, g.view.seen x ≤ g'.view.seen x := fun x => by rw [t14]; omega
  have hf : ∀ j, j ≠ s.kc + 1 → m'.hist .cnt j = s.m.hist .cnt j := fun j hj => t10 _ _ (fun e => hj e.2)
  have hg : ∀ x j, x ≠ .cnt → m'.hist x j = s.m.hist x j := fun x j hx => t10 _ _ (fun e => hx e.1)
  have hg1 := fun j => hg .fin j (by decide)
  have hg2 := fun j => hg .q j (by decide)
  clear t5 t6 t7 t8 t9 t10 t13 t14 hm hq hg
  generalize hs' : ({ s with m := m', kc := s.kc + 1, f := .done } : St) = s'
  have n0 : s'.m = m' := by rw [← hs']
  have n1 : s'.st = s.st := by rw [← hs']
  have n2 : s'.f = .done := by rw [← hs']
  have n3 : s'.r = s.r := by rw [← hs']
  have n4 : s'.drain = s.drain := by rw [← hs']
  have n5 : s'.b = s.b := by rw [← hs']
  have n6 : s'.left = s.left := by rw [← hs']
  have n7 : s'.nest = s.nest := by rw [← hs']
  have n8 : s'.started = s.started := by rw [← hs']
  have n9 : s'.ran = s.ran := by rw [← hs']
  have n10 : s'.kc = s.kc + 1 := by rw [← hs']
  have n11 : s'.kf = s.kf := by rw [← hs']
  have n12 : s'.kq = s.kq := by rw [← hs']
  have n13 : s'.nq = s.nq := by rw [← hs']
  have n14 : s'.p2 = s.p2 := by rw [← hs']
  have hn := np_eq (c := c) n1
  clear hs'
  refine ⟨?_, ?_, ?_, ?_, by rw [n0]; exact hr⟩
  · clear k1 k2 k3 k4 k5 k6 k7 k8 w1 w2 w3 w4
    constructor
    all_goals grind [fw, fb]
  · clear k1 k2 k3 k4 k5 k6 k7 k8 w1 w2 w3 w4
    constructor
    all_goals grind [fw, fb]
  · clear k1 k2 k3 k4 k5 k6 k7 k8
    constructor
    all_goals grind [fw, fb]
  · clear v8 v9 v12 v13 v14 v15 v16 w1 w2 w3 w4
    constructor
    all_goals grind [fw, fb]

set_option maxHeartbeats 8000000 in
theorem i_top0 {c : Cfg} {s : St} (h : Inv c s) {ts v : Nat} {m' : Mem Loc Acc} {o : Ord} (hp : s.r = .top) (hv : v = 0) (hm : s.m.load conf o 0 .fin ts (use (0)) = some (v, m')) : Inv c { s with m := m', r := .wait } := by
  obtain ⟨c1, c2, c3, c4, c5, c6, c7, c8⟩ := h.ctl
  obtain ⟨v1, v2, v3, v4, v5, v6, v7, v8, v9, v10, v11, v12, v13, v14, v15, v16⟩ := h.v
  obtain ⟨w1, w2, w3, w4⟩ := h.w
  obtain ⟨k1, k2, k3, k4, k5, k6, k7, k8⟩ := h.k
  have hq : s.m.racy conf (0) (use (0)) = false := by
    rw [racy_false]; intro i' b hi' hc
    have e := k3 i' b hi'
    exfalso
    have e2 : s.r = .gone := by
      cases hb : b.what with
      | use => simp [conf, hb] at hc
      | destroy => exact e hb
    simp_all
  obtain ⟨g, t1, t2, t3, t4, t5, t6, t7, t8, t9⟩ := load_spec hm
  have hlog := fun k b => logged_snoc t5 k b
  have hlt := logged_lt s.m
  have hr : m'.race = false := by rw [t6, h.noRace, hq]; rfl
  clear h
  have hh : ∀ l j, m'.hist l j = s.m.hist l j := fun l j => by rw [t4]
  have mono : ∀ u k, (s.m.cur u).know k = true → (m'.cur u).know k = true := fun u k hk => by
    by_cases hu : u = 0
    · rw [hu, t8]; rw [hu] at hk; rw [hk]; rfl
    · rw [t7 u hu]; exact hk
  have hself : (m'.cur (0)).know s.m.log.length = true := by rw [t8]; simp
  have hacq : o.isAcq = true → ∀ k, g.view.know k = true → (m'.cur (0)).know k = true := fun ho k hk => by rw [t8, ho, hk]; simp
  have hsn : ∀ u x, (s.m.cur u).seen x ≤ (m'.cur u).seen x := fun u x => by
    by_cases hu : u = 0
    · subst hu; rw [t9]
      by_cases hx : x = .fin
      · rw [if_pos hx, hx]; omega
      · rw [if_neg hx]; omega
    · rw [t7 u hu]; exact Nat.le_refl _
  have hsa : o.isAcq = true → ∀ x, g.view.seen x ≤ (m'.cur (0)).seen x := fun ho x => by rw [t9, if_pos ho]; omega
  clear t4 t5 t6 t7 t8 t9 hm hq
  generalize hs' : ({ s with m := m', r := .wait } : St) = s'
  have n0 : s'.m = m' := by rw [← hs']
  have n1 : s'.st = s.st := by rw [← hs']
  have n2 : s'.f = s.f := by rw [← hs']
  have n3 : s'.r = .wait := by rw [← hs']
  have n4 : s'.drain = s.drain := by rw [← hs']
  have n5 : s'.b = s.b := by rw [← hs']
  have n6 : s'.left = s.left := by rw [← hs']
  have n7 : s'.nest = s.nest := by rw [← hs']
  have n8 : s'.started = s.started := by rw [← hs']
  have n9 : s'.ran = s.ran := by rw [← hs']
  have n10 : s'.kc = s.kc := by rw [← hs']
  have n11 : s'.kf = s.kf := by rw [← hs']
  have n12 : s'.kq = s.kq := by rw [← hs']
  have n13 : s'.nq = s.nq := by rw [← hs']
  have n14 : s'.p2 = s.p2 := by rw [← hs']
  have hn := np_eq (c := c) n1
  clear hs'
  refine ⟨?_, ?_, ?_, ?_, by rw [n0]; exact hr⟩
  · clear k1 k2 k3 k4 k5 k6 k7 k8 w1 w2 w3 w4
    constructor
    all_goals grind [fw, fb]
  · clear k1 k2 k3 k4 k5 k6 k7 k8 w1 w2 w3 w4
    constructor
    all_goals grind [fw, fb]
  · clear k1 k2 k3 k4 k5 k6 k7 k8
    constructor
    all_goals grind [fw, fb]
  · clear v8 v9 v12 v13 v14 v15 v16 w1 w2 w3 w4
    constructor
    all_goals grind [fw, fb]

set_option maxHeartbeats 8000000 in
theorem i_top1 {c : Cfg} {s : St} (h : Inv c s) {ts v : Nat} {m' : Mem Loc Acc} {o : Ord} (ho : o.isAcq = true) (hp : s.r = .top) (hv : v ≠ 0) (hm : s.m.load conf o 0 .fin ts (use (0)) = some (v, m')) : Inv c { s with m := m', drain := true, r := .pop } := by
  obtain ⟨c1, c2, c3, c4, c5, c6, c7, c8⟩ := h.ctl
  obtain ⟨v1, v2, v3, v4, v5, v6, v7, v8, v9, v10, v11, v12, v13, v14, v15, v16⟩ := h.v
  obtain ⟨w1, w2, w3, w4⟩ := h.w
  obtain ⟨k1, k2, k3, k4, k5, k6, k7, k8⟩ := h.k
  have hq : s.m.racy conf (0) (use (0)) = false := by
    rw [racy_false]; intro i' b hi' hc
    have e := k3 i' b hi'
    exfalso
    have e2 : s.r = .gone := by
      cases hb : b.what with
      | use => simp [conf, hb] at hc
      | destroy => exact e hb
    simp_all
  obtain ⟨g, t1, t2, t3, t4, t5, t6, t7, t8, t9⟩ := load_spec hm
  have hlog := fun k b => logged_snoc t5 k b
  have hlt := logged_lt s.m
  have hr : m'.race = false := by rw [t6, h.noRace, hq]; rfl
  clear h
  have hh : ∀ l j, m'.hist l j = s.m.hist l j := fun l j => by rw [t4]
  have mono : ∀ u k, (s.m.cur u).know k = true → (m'.cur u).know k = true := fun u k hk => by
    by_cases hu : u = 0
    · rw [hu, t8]; rw [hu] at hk; rw [hk]; rfl
    · rw [t7 u hu]; exact hk
  have hself : (m'.cur (0)).know s.m.log.length = true := by rw [t8]; simp
  have hacq : o.isAcq = true → ∀ k, g.view.know k = true → (m'.cur (0)).know k = true := fun ho k hk => by rw [t8, ho, hk]; simp
  have hsn : ∀ u x, (s.m.cur u).seen x ≤ (m'.cur u).seen x := fun u x => by
    by_cases hu : u = 0
    · subst hu; rw [t9]
      by_cases hx : x = .fin
      · rw [if_pos hx, hx]; omega
      · rw [if_neg hx]; omega
    · rw [t7 u hu]; exact Nat.le_refl _
  have hsa : o.isAcq = true → ∀ x, g.view.seen x ≤ (m'.cur (0)).seen x := fun ho x => by rw [t9, if_pos ho]; omega
  clear t4 t5 t6 t7 t8 t9 hm hq
  generalize hs' : ({ s with m := m', drain := true, r := .pop } : St) = s'
  have n0 : s'.m = m' := by rw [← hs']
  have n1 : s'.st = s.st := by rw [← hs']
  have n2 : s'.f = s.f := by rw [← hs']
  have n3 : s'.r = .pop := by rw [← hs']
  have n4 : s'.drain = true := by rw [← hs']
  have n5 : s'.b = s.b := by rw [← hs']
  have n6 : s'.left = s.left := by rw [← hs']
  have n7 : s'.nest = s.nest := by rw [← hs']
  have n8 : s'.started = s.started := by rw [← hs']
  have n9 : s'.ran = s.ran := by rw [← hs']
  have n10 : s'.kc = s.kc := by rw [← hs']
  have n11 : s'.kf = s.kf := by rw [← hs']
  have n12 : s'.kq = s.kq := by rw [← hs']
  have n13 : s'.nq = s.nq := by rw [← hs']
  have n14 : s'.p2 = s.p2 := by rw [← hs']
  have hn := np_eq (c := c) n1
  clear hs'
  refine ⟨?_, ?_, ?_, ?_, by rw [n0]; exact hr⟩
  · clear k1 k2 k3 k4 k5 k6 k7 k8 w1 w2 w3 w4
    constructor
    all_goals grind [fw, fb]
  · clear k1 k2 k3 k4 k5 k6 k7 k8 w1 w2 w3 w4
    constructor
    all_goals grind [fw, fb]
  · clear k1 k2 k3 k4 k5 k6 k7 k8
    constructor
    all_goals grind [fw, fb]
  · clear v8 v9 v12 v13 v14 v15 v16 w1 w2 w3 w4
    constructor
    all_goals grind [fw, fb]

set_option maxHeartbeats 8000000 in
theorem i_wait {c : Cfg} {s : St} (h : Inv c s) {ts v : Nat} {m' : Mem Loc Acc} {o : Ord} (hp : s.r = .wait) (hm : s.m.load conf o 0 .q ts (use (0)) = some (v, m')) : Inv c { s with m := m', r := if v = 0 then .wait else .pop } := by
  obtain ⟨c1, c2, c3, c4, c5, c6, c7, c8⟩ := h.ctl
  obtain ⟨v1, v2, v3, v4, v5, v6, v7, v8, v9, v10, v11, v12, v13, v14, v15, v16⟩ := h.v
  obtain ⟨w1, w2, w3, w4⟩ := h.w
  obtain ⟨k1, k2, k3, k4, k5, k6, k7, k8⟩ := h.k
  have hq : s.m.racy conf (0) (use (0)) = false := by
    rw [racy_false]; intro i' b hi' hc
    have e := k3 i' b hi'
    exfalso
    have e2 : s.r = .gone := by
      cases hb : b.what with
      | use => simp [conf, hb] at hc
      | destroy => exact e hb
    simp_all
  obtain ⟨g, t1, t2, t3, t4, t5, t6, t7, t8, t9⟩ := load_spec hm
  have hlog := fun k b => logged_snoc t5 k b
  have hlt := logged_lt s.m
  have hr : m'.race = false := by rw [t6, h.noRace, hq]; rfl
  clear h
  have hh : ∀ l j, m'.hist l j = s.m.hist l j := fun l j => by rw [t4]
  have mono : ∀ u k, (s.m.cur u).know k = true → (m'.cur u).know k = true := fun u k hk => by
    by_cases hu : u = 0
    · rw [hu, t8]; rw [hu] at hk; rw [hk]; rfl
    · rw [t7 u hu]; exact hk
  have hself : (m'.cur (0)).know s.m.log.length = true := by rw [t8]; simp
  have hacq : o.isAcq = true → ∀ k, g.view.know k = true → (m'.cur (0)).know k = true := fun ho k hk => by rw [t8, ho, hk]; simp
  have hsn : ∀ u x, (s.m.cur u).seen x ≤ (m'.cur u).seen x := fun u x => by
    by_cases hu : u = 0
    · subst hu; rw [t9]
      by_cases hx : x = .q
      · rw [if_pos hx, hx]; omega
      · rw [if_neg hx]; omega
    · rw [t7 u hu]; exact Nat.le_refl _
  have hsa : o.isAcq = true → ∀ x, g.view.seen x ≤ (m'.cur (0)).seen x := fun ho x => by rw [t9, if_pos ho]; omega
  clear t4 t5 t6 t7 t8 t9 hm hq
  generalize hs' : ({ s with m := m', r := if v = 0 then .wait else .pop } : St) = s'
  have n0 : s'.m = m' := by rw [← hs']
  have n1 : s'.st = s.st := by rw [← hs']
  have n2 : s'.f = s.f := by rw [← hs']
  have n3 : s'.r = if v = 0 then .wait else .pop := by rw [← hs']
  have n4 : s'.drain = s.drain := by rw [← hs']
  have n5 : s'.b = s.b := by rw [← hs']
  have n6 : s'.left = s.left := by rw [← hs']
  have n7 : s'.nest = s.nest := by rw [← hs']
  have n8 : s'.started = s.started := by rw [← hs']
  have n9 : s'.ran = s.ran := by rw [← hs']
  have n10 : s'.kc = s.kc := by rw [← hs']
  have n11 : s'.kf = s.kf := by rw [← hs']
  have n12 : s'.kq = s.kq := by rw [← hs']
  have n13 : s'.nq = s.nq := by rw [← hs']
  have n14 : s'.p2 = s.p2 := by rw [← hs']
  have hn := np_eq (c := c) n1
  clear hs'
  refine ⟨?_, ?_, ?_, ?_, by rw [n0]; exact hr⟩
  · clear k1 k2 k3 k4 k5 k6 k7 k8 w1 w2 w3 w4
    constructor
    all_goals grind [fw, fb]
  · clear k1 k2 k3 k4 k5 k6 k7 k8 w1 w2 w3 w4
    constructor
    all_goals grind [fw, fb]
  · clear k1 k2 k3 k4 k5 k6 k7 k8
    constructor
    all_goals grind [fw, fb]
  · clear v8 v9 v12 v13 v14 v15 v16 w1 w2 w3 w4
    constructor
    all_goals grind [fw, fb]

set_option maxHeartbeats 8000000 in
theorem i_pop {c : Cfg} {s : St} (h : Inv c s) {ts v : Nat} {m' : Mem Loc Acc} {o : Ord} (ho : o.isAcq = true) (hp : s.r = .pop) (hm : s.m.rmw conf o 0 .q ts (fun _ => 0) (use (0)) = some (v, m')) : Inv c { s with m := m', kq := ts + 1, nq := 0, b := v, left := v, r := if v = 0 then (if s.drain then .chk else .top) else .exec } := by
  obtain ⟨c1, c2, c3, c4, c5, c6, c7, c8⟩ := h.ctl
  obtain ⟨v1, v2, v3, v4, v5, v6, v7, v8, v9, v10, v11, v12, v13, v14, v15, v16⟩ := h.v
  obtain ⟨w1, w2, w3, w4⟩ := h.w
  obtain ⟨k1, k2, k3, k4, k5, k6, k7, k8⟩ := h.k
  have hq : s.m.racy conf (0) (use (0)) = false := by
    rw [racy_false]; intro i' b hi' hc
    have e := k3 i' b hi'
    exfalso
    have e2 : s.r = .gone := by
      cases hb : b.what with
      | use => simp [conf, hb] at hc
      | destroy => exact e hb
    simp_all
  obtain ⟨g, t1, t2, t3, t4, t5, t6, t7, t8, t9, t10, g', t11, t12, t13, t14⟩ := rmw_spec hm
  have hts : ts = s.kq := by
    rcases Nat.lt_trichotomy ts s.kq with hl | hl | hl
    · exact absurd t4 (v4 (ts + 1) hl)
    · exact hl
    · rw [v3 _ hl] at t1; cases t1
  subst hts
  have hlog := fun k b => logged_snoc t5 k b
  have hlt := logged_lt s.m
  have hr : m'.race = false := by rw [t6, h.noRace, hq]; rfl
  clear h
  have mono : ∀ u k, (s.m.cur u).know k = true → (m'.cur u).know k = true := fun u k hk => by
    by_cases hu : u = 0
    · rw [hu, t8]; rw [hu] at hk; rw [hk]; rfl
    · rw [t7 u hu]; exact hk
  have hself : (m'.cur (0)).know s.m.log.length = true := by rw [t8]; simp
  have hacq : o.isAcq = true → ∀ k, g.view.know k = true → (m'.cur (0)).know k = true := fun ho k hk => by rw [t8, hk, ho]; simp
  have hrel : o.isRel = true → ∀ k, (m'.cur (0)).know k = true → g'.view.know k = true := fun ho k hk => by rw [t13, hk, ho]; simp
  have hch : ∀ k, g.view.know k = true → g'.view.know k = true := fun k hk => by rw [t13, hk]; rfl
  have hsn : ∀ u x, (s.m.cur u).seen x ≤ (m'.cur u).seen x := fun u x => by
    by_cases hu : u = 0
    · subst hu; rw [t9]
      by_cases hx : x = .q
      · rw [if_pos hx]; rw [hx]; omega
      · rw [if_neg hx]; omega
    · rw [t7 u hu]; exact Nat.le_refl _
  have hsl : s.kq + 1 ≤ (m'.cur (0)).seen .q := by rw [t9, if_pos rfl]; omega
  have hsa : o.isAcq = true → ∀ x, g.view.seen x ≤ (m'.cur (0)).seen x := fun ho x => by rw [t9, if_pos ho]; omega
  have hsr : o.isRel = true → ∀ x, (m'.cur (0)).seen x ≤ g'.view.seen x := fun ho x => by rw [t14, if_pos ho]; omega
  have hsc : ∀ x, g.view.seen x ≤ g'.view.seen x := fun x => by rw [t14]; omega
  have hf : ∀ j, j ≠ s.kq + 1 → m'.hist .q j = s.m.hist .q j := fun j hj => t10 _ _ (fun e => hj e.2)
  have hg : ∀ x j, x ≠ .q → m'.hist x j = s.m.hist x j := fun x j hx => t10 _ _ (fun e => hx e.1)
  have hg0 := fun j => hg .cnt j (by decide)
  have hg1 := fun j => hg .fin j (by decide)
  clear t5 t6 t7 t8 t9 t10 t13 t14 hm hq hg
  generalize hs' : ({ s with m := m', kq := s.kq + 1, nq := 0, b := v, left := v, r := if v = 0 then (if s.drain then .chk else .top) else .exec } : St) = s'
  have n0 : s'.m = m' := by rw [← hs']
  have n1 : s'.st = s.st := by rw [← hs']
  have n2 : s'.f = s.f := by rw [← hs']
  have n3 : s'.r = if v = 0 then (if s.drain then .chk else .top) else .exec := by rw [← hs']
  have n4 : s'.drain = s.drain := by rw [← hs']
  have n5 : s'.b = v := by rw [← hs']
  have n6 : s'.left = v := by rw [← hs']
  have n7 : s'.nest = s.nest := by rw [← hs']
  have n8 : s'.started = s.started := by rw [← hs']
  have n9 : s'.ran = s.ran := by rw [← hs']
  have n10 : s'.kc = s.kc := by rw [← hs']
  have n11 : s'.kf = s.kf := by rw [← hs']
  have n12 : s'.kq = s.kq + 1 := by rw [← hs']
  have n13 : s'.nq = 0 := by rw [← hs']
  have n14 : s'.p2 = s.p2 := by rw [← hs']
  have hn := np_eq (c := c) n1
  clear hs'
  refine ⟨?_, ?_, ?_, ?_, by rw [n0]; exact hr⟩
  · clear k1 k2 k3 k4 k5 k6 k7 k8 w1 w2 w3 w4
    constructor
    all_goals grind [fw, fb]
  · clear k1 k2 k3 k4 k5 k6 k7 k8 w1 w2 w3 w4
    constructor
    all_goals grind [fw, fb]
  · clear k1 k2 k3 k4 k5 k6 k7 k8
    constructor
    all_goals grind [fw, fb]
  · clear v8 v9 v12 v13 v14 v15 v16 w1 w2 w3 w4
    constructor
    all_goals grind [fw, fb]

set_option maxHeartbeats 8000000 in
theorem i_one {c : Cfg} {s : St} (h : Inv c s) (hp : s.r = .exec) (hl : 0 < s.left) : Inv c { s with left := s.left - 1, ran := s.ran + 1 } := by
  obtain ⟨c1, c2, c3, c4, c5, c6, c7, c8⟩ := h.ctl
  obtain ⟨v1, v2, v3, v4, v5, v6, v7, v8, v9, v10, v11, v12, v13, v14, v15, v16⟩ := h.v
  obtain ⟨w1, w2, w3, w4⟩ := h.w
  obtain ⟨k1, k2, k3, k4, k5, k6, k7, k8⟩ := h.k
  have hr := h.noRace
  clear h
  generalize hs' : ({ s with left := s.left - 1, ran := s.ran + 1 } : St) = s'
  have n0 : s'.m = s.m := by rw [← hs']
  have n1 : s'.st = s.st := by rw [← hs']
  have n2 : s'.f = s.f := by rw [← hs']
  have n3 : s'.r = s.r := by rw [← hs']
  have n4 : s'.drain = s.drain := by rw [← hs']
  have n5 : s'.b = s.b := by rw [← hs']
  have n6 : s'.left = s.left - 1 := by rw [← hs']
  have n7 : s'.nest = s.nest := by rw [← hs']
  have n8 : s'.started = s.started := by rw [← hs']
  have n9 : s'.ran = s.ran + 1 := by rw [← hs']
  have n10 : s'.kc = s.kc := by rw [← hs']
  have n11 : s'.kf = s.kf := by rw [← hs']
  have n12 : s'.kq = s.kq := by rw [← hs']
  have n13 : s'.nq = s.nq := by rw [← hs']
  have n14 : s'.p2 = s.p2 := by rw [← hs']
  have hn := np_eq (c := c) n1
  clear hs'
  refine ⟨?_, ?_, ?_, ?_, by rw [n0]; exact hr⟩
  · clear k1 k2 k3 k4 k5 k6 k7 k8 w1 w2 w3 w4
    constructor
    all_goals grind [fw, fb]
  · clear k1 k2 k3 k4 k5 k6 k7 k8 w1 w2 w3 w4
    constructor
    all_goals grind [fw, fb]
  · clear k1 k2 k3 k4 k5 k6 k7 k8
    constructor
    all_goals grind [fw, fb]
  · clear v8 v9 v12 v13 v14 v15 v16 w1 w2 w3 w4
    constructor
    all_goals grind [fw, fb]

set_option maxHeartbeats 8000000 in
theorem i_sub {c : Cfg} {s : St} (h : Inv c s) {ts v : Nat} {m' : Mem Loc Acc} {o : Ord} (hp : s.r = .exec) (hl : s.left = 0) (hn0 : s.nest = false) (hm : s.m.rmw conf o 0 .cnt ts (· - s.b) (use (0)) = some (v, m')) : Inv c { s with m := m', kc := ts + 1, b := 0, r := if s.drain then .pop else .top } := by
  obtain ⟨c1, c2, c3, c4, c5, c6, c7, c8⟩ := h.ctl
  obtain ⟨v1, v2, v3, v4, v5, v6, v7, v8, v9, v10, v11, v12, v13, v14, v15, v16⟩ := h.v
  obtain ⟨w1, w2, w3, w4⟩ := h.w
  obtain ⟨k1, k2, k3, k4, k5, k6, k7, k8⟩ := h.k
  have hq : s.m.racy conf (0) (use (0)) = false := by
    rw [racy_false]; intro i' b hi' hc
    have e := k3 i' b hi'
    exfalso
    have e2 : s.r = .gone := by
      cases hb : b.what with
      | use => simp [conf, hb] at hc
      | destroy => exact e hb
    simp_all
  obtain ⟨g, t1, t2, t3, t4, t5, t6, t7, t8, t9, t10, g', t11, t12, t13, t14⟩ := rmw_spec hm
  have hts : ts = s.kc := by
    rcases Nat.lt_trichotomy ts s.kc with hl | hl | hl
    · exact absurd t4 (v2 (ts + 1) hl)
    · exact hl
    · rw [v1 _ hl] at t1; cases t1
  subst hts
  have hlog := fun k b => logged_snoc t5 k b
  have hlt := logged_lt s.m
  have hr : m'.race = false := by rw [t6, h.noRace, hq]; rfl
  clear h
  have mono : ∀ u k, (s.m.cur u).know k = true → (m'.cur u).know k = true := fun u k hk => by
    by_cases hu : u = 0
    · rw [hu, t8]; rw [hu] at hk; rw [hk]; rfl
    · rw [t7 u hu]; exact hk
  have hself : (m'.cur (0)).know s.m.log.length = true := by rw [t8]; simp
  have hacq : o.isAcq = true → ∀ k, g.view.know k = true → (m'.cur (0)).know k = true := fun ho k hk => by rw [t8, hk, ho]; simp
  have hrel : o.isRel = true → ∀ k, (m'.cur (0)).know k = true → g'.view.know k = true := fun ho k hk => by rw [t13, hk, ho]; simp
  have hch : ∀ k, g.view.know k = true → g'.view.know k = true := fun k hk => by rw [t13, hk]; rfl
  have hsn : ∀ u x, (s.m.cur u).seen x ≤ (m'.cur u).seen x := fun u x => by
    by_cases hu : u = 0
    · subst hu; rw [t9]
      by_cases hx : x = .cnt
      · rw [if_pos hx]; rw [hx]; omega
      · rw [if_neg hx]; omega
    · rw [t7 u hu]; exact Nat.le_refl _
  have hsl : s.kc + 1 ≤ (m'.cur (0)).seen .cnt := by rw [t9, if_pos rfl]; omega
  have hsa : o.isAcq = true → ∀ x, g.view.seen x ≤ (m'.cur (0)).seen x := fun ho x => by rw [t9, if_pos ho]; omega
  have hsr : o.isRel = true → ∀ x, (m'.cur (0)).seen x ≤ g'.view.seen x := fun ho x => by rw [t14, if_pos ho]; omega
  have hsc : ∀ x, g.view.seen x ≤ g'.view.seen x := fun x => by rw [t14]; omega
  have hf : ∀ j, j ≠ s.kc + 1 → m'.hist .cnt j = s.m.hist .cnt j := fun j hj => t10 _ _ (fun e => hj e.2)
  have hg : ∀ x j, x ≠ .cnt → m'.hist x j = s.m.hist x j := fun x j hx => t10 _ _ (fun e => hx e.1)
  have hg1 := fun j => hg .fin j (by decide)
  have hg2 := fun j => hg .q j (by decide)
  clear t5 t6 t7 t8 t9 t10 t13 t14 hm hq hg
  generalize hs' : ({ s with m := m', kc := s.kc + 1, b := 0, r := if s.drain then .pop else .top } : St) = s'
  have n0 : s'.m = m' := by rw [← hs']
  have n1 : s'.st = s.st := by rw [← hs']
  have n2 : s'.f = s.f := by rw [← hs']
  have n3 : s'.r = if s.drain then .pop else .top := by rw [← hs']
  have n4 : s'.drain = s.drain := by rw [← hs']
  have n5 : s'.b = 0 := by rw [← hs']
  have n6 : s'.left = s.left := by rw [← hs']
  have n7 : s'.nest = s.nest := by rw [← hs']
  have n8 : s'.started = s.started := by rw [← hs']
  have n9 : s'.ran = s.ran := by rw [← hs']
  have n10 : s'.kc = s.kc + 1 := by rw [← hs']
  have n11 : s'.kf = s.kf := by rw [← hs']
  have n12 : s'.kq = s.kq := by rw [← hs']
  have n13 : s'.nq = s.nq := by rw [← hs']
  have n14 : s'.p2 = s.p2 := by rw [← hs']
  have hn := np_eq (c := c) n1
  clear hs'
  refine ⟨?_, ?_, ?_, ?_, by rw [n0]; exact hr⟩
  · clear k1 k2 k3 k4 k5 k6 k7 k8 w1 w2 w3 w4
    constructor
    all_goals grind [fw, fb]
  · clear k1 k2 k3 k4 k5 k6 k7 k8 w1 w2 w3 w4
    constructor
    all_goals grind [fw, fb]
  · clear k1 k2 k3 k4 k5 k6 k7 k8
    constructor
    all_goals grind [fw, fb]
  · clear v8 v9 v12 v13 v14 v15 v16 w1 w2 w3 w4
    constructor
    all_goals grind [fw, fb]

set_option maxHeartbeats 8000000 in
theorem i_chk {c : Cfg} {s : St} (h : Inv c s) {ts v : Nat} {m' : Mem Loc Acc} {o : Ord} (ho : o.isAcq = true) (hp : s.r = .chk) (hm : s.m.load conf o 0 .cnt ts (use (0)) = some (v, m')) : Inv c { s with m := m', r := if v = 0 then .exit else .pop } := by
  obtain ⟨c1, c2, c3, c4, c5, c6, c7, c8⟩ := h.ctl
  obtain ⟨v1, v2, v3, v4, v5, v6, v7, v8, v9, v10, v11, v12, v13, v14, v15, v16⟩ := h.v
  obtain ⟨w1, w2, w3, w4⟩ := h.w
  obtain ⟨k1, k2, k3, k4, k5, k6, k7, k8⟩ := h.k
  have hq : s.m.racy conf (0) (use (0)) = false := by
    rw [racy_false]; intro i' b hi' hc
    have e := k3 i' b hi'
    exfalso
    have e2 : s.r = .gone := by
      cases hb : b.what with
      | use => simp [conf, hb] at hc
      | destroy => exact e hb
    simp_all
  obtain ⟨g, t1, t2, t3, t4, t5, t6, t7, t8, t9⟩ := load_spec hm
  have hlog := fun k b => logged_snoc t5 k b
  have hlt := logged_lt s.m
  have hr : m'.race = false := by rw [t6, h.noRace, hq]; rfl
  clear h
  have hh : ∀ l j, m'.hist l j = s.m.hist l j := fun l j => by rw [t4]
  have mono : ∀ u k, (s.m.cur u).know k = true → (m'.cur u).know k = true := fun u k hk => by
    by_cases hu : u = 0
    · rw [hu, t8]; rw [hu] at hk; rw [hk]; rfl
    · rw [t7 u hu]; exact hk
  have hself : (m'.cur (0)).know s.m.log.length = true := by rw [t8]; simp
  have hacq : o.isAcq = true → ∀ k, g.view.know k = true → (m'.cur (0)).know k = true := fun ho k hk => by rw [t8, ho, hk]; simp
  have hsn : ∀ u x, (s.m.cur u).seen x ≤ (m'.cur u).seen x := fun u x => by
    by_cases hu : u = 0
    · subst hu; rw [t9]
      by_cases hx : x = .cnt
      · rw [if_pos hx, hx]; omega
      · rw [if_neg hx]; omega
    · rw [t7 u hu]; exact Nat.le_refl _
  have hsa : o.isAcq = true → ∀ x, g.view.seen x ≤ (m'.cur (0)).seen x := fun ho x => by rw [t9, if_pos ho]; omega
  clear t4 t5 t6 t7 t8 t9 hm hq
  have hz : v = 0 → ts = s.kc := fun hv => by
    have h1 := v16 (c6 hp)
    have h2 := (c5 (c6 hp)).1
    rcases Nat.lt_trichotomy ts s.kc with hl | hl | hl
    · exact absurd (t2 ▸ hv) (v13 ts g h2 (by omega) hl t1)
    · exact hl
    · rw [v1 _ hl] at t1; cases t1
  have hz2 : v = 0 → s.f = .done ∧ s.nq = 0 ∧ np c s = 0 := fun hv => by
    have h2 := (c5 (c6 hp)).1
    have e := v8 g (by rw [← hz hv]; exact t1)
    rw [← t2, hv] at e
    refine ⟨?_, by omega, by omega⟩
    revert e h2; cases s.f <;> simp [fw]
  have hz3 : v = 0 → ∀ i, s.st i ≠ .push := fun hv i => by
    have e := (hz2 hv).2.2
    simp only [np] at e
    rw [cnt_zero_iff] at e
    by_cases hi : i < c.n
    · have := e i hi; simpa using this
    · rw [c8 i (by omega)]; simp
  generalize hs' : ({ s with m := m', r := if v = 0 then .exit else .pop } : St) = s'
  have n0 : s'.m = m' := by rw [← hs']
  have n1 : s'.st = s.st := by rw [← hs']
  have n2 : s'.f = s.f := by rw [← hs']
  have n3 : s'.r = if v = 0 then .exit else .pop := by rw [← hs']
  have n4 : s'.drain = s.drain := by rw [← hs']
  have n5 : s'.b = s.b := by rw [← hs']
  have n6 : s'.left = s.left := by rw [← hs']
  have n7 : s'.nest = s.nest := by rw [← hs']
  have n8 : s'.started = s.started := by rw [← hs']
  have n9 : s'.ran = s.ran := by rw [← hs']
  have n10 : s'.kc = s.kc := by rw [← hs']
  have n11 : s'.kf = s.kf := by rw [← hs']
  have n12 : s'.kq = s.kq := by rw [← hs']
  have n13 : s'.nq = s.nq := by rw [← hs']
  have n14 : s'.p2 = s.p2 := by rw [← hs']
  have hn := np_eq (c := c) n1
  clear hs'
  refine ⟨?_, ?_, ?_, ?_, by rw [n0]; exact hr⟩
  · clear k1 k2 k3 k4 k5 k6 k7 k8 w1 w2 w3 w4
    constructor
    all_goals grind [fw, fb]
  · clear k1 k2 k3 k4 k5 k6 k7 k8 w1 w2 w3 w4
    constructor
    all_goals grind [fw, fb]
  · clear k1 k2 k3 k4 k5 k6 k7 k8
    constructor
    all_goals grind [fw, fb]
  · clear v8 v9 v12 v13 v14 v15 v16 w1 w2 w3 w4
    constructor
    case ex =>
      intro hx j a hl
      rw [n0] at hl ⊢
      have hv : v = 0 := by
        rw [n3] at hx
        by_cases hv : v = 0
        · exact hv
        · rw [if_neg hv] at hx; cases hx
      rcases (hlog j a).mp hl with hl | ⟨rfl, rfl⟩
      · rcases Nat.lt_or_ge a.who 2 with hw | hw
        · by_cases h0 : a.who = 0
          · exact mono _ _ (h0 ▸ k1 j a hl)
          · exact hacq ho j (k6 j a g hl (by omega) (hz2 hv).1 (by rw [← hz hv]; exact t1))
        · refine mono _ _ (k5 j a hl hw ?_ (hz2 hv).2.1)
          have h1 := k2 j a hl hw
          have h2 := hz3 hv (a.who - 2)
          revert h1 h2; cases s.st (a.who - 2) <;> simp
      · exact hself
    all_goals grind [fw, fb]

set_option maxHeartbeats 8000000 in
theorem i_nadd {c : Cfg} {s : St} (h : Inv c s) {ts v : Nat} {m' : Mem Loc Acc} {o : Ord} (hp : s.r = .exec) (hn0 : s.nest = false) (hm : s.m.rmw conf o 0 .cnt ts (· + 1) (use (0)) = some (v, m')) : Inv c { s with m := m', kc := ts + 1, nest := true, started := s.started + 1 } := by
  obtain ⟨c1, c2, c3, c4, c5, c6, c7, c8⟩ := h.ctl
  obtain ⟨v1, v2, v3, v4, v5, v6, v7, v8, v9, v10, v11, v12, v13, v14, v15, v16⟩ := h.v
  obtain ⟨w1, w2, w3, w4⟩ := h.w
  obtain ⟨k1, k2, k3, k4, k5, k6, k7, k8⟩ := h.k
  have hq : s.m.racy conf (0) (use (0)) = false := by
    rw [racy_false]; intro i' b hi' hc
    have e := k3 i' b hi'
    exfalso
    have e2 : s.r = .gone := by
      cases hb : b.what with
      | use => simp [conf, hb] at hc
      | destroy => exact e hb
    simp_all
  obtain ⟨g, t1, t2, t3, t4, t5, t6, t7, t8, t9, t10, g', t11, t12, t13, t14⟩ := rmw_spec hm
  have hts : ts = s.kc := by
    rcases Nat.lt_trichotomy ts s.kc with hl | hl | hl
    · exact absurd t4 (v2 (ts + 1) hl)
    · exact hl
    · rw [v1 _ hl] at t1; cases t1
  subst hts
  have hlog := fun k b => logged_snoc t5 k b
  have hlt := logged_lt s.m
  have hr : m'.race = false := by rw [t6, h.noRace, hq]; rfl
  clear h
  have mono : ∀ u k, (s.m.cur u).know k = true → (m'.cur u).know k = true := fun u k hk => by
    by_cases hu : u = 0
    · rw [hu, t8]; rw [hu] at hk; rw [hk]; rfl
    · rw [t7 u hu]; exact hk
  have hself : (m'.cur (0)).know s.m.log.length = true := by rw [t8]; simp
  have hacq : o.isAcq = true → ∀ k, g.view.know k = true → (m'.cur (0)).know k = true := fun ho k hk => by rw [t8, hk, ho]; simp
  have hrel : o.isRel = true → ∀ k, (m'.cur (0)).know k = true → g'.view.know k = true := fun ho k hk => by rw [t13, hk, ho]; simp
  have hch : ∀ k, g.view.know k = true → g'.view.know k = true := fun k hk => by rw [t13, hk]; rfl
  have hsn : ∀ u x, (s.m.cur u).seen x ≤ (m'.cur u).seen x := fun u x => by
    by_cases hu : u = 0
    · subst hu; rw [t9]
      by_cases hx : x = .cnt
      · rw [if_pos hx]; rw [hx]; omega
      · rw [if_neg hx]; omega
    · rw [t7 u hu]; exact Nat.le_refl _
  have hsl : s.kc + 1 ≤ (m'.cur (0)).seen .cnt := by rw [t9, if_pos rfl]; omega
  have hsa : o.isAcq = true → ∀ x, g.view.seen x ≤ (m'.cur (0)).seen x := fun ho x => by rw [t9, if_pos ho]; omega
  have hsr : o.isRel = true → ∀ x, (m'.cur (0)).seen x ≤ g'.view.seen x := fun ho x => by rw [t14, if_pos ho]; omega
  have hsc : ∀ x, g.view.seen x ≤ g'.view.seen x := fun x => by rw [t14]; omega
  have hf : ∀ j, j ≠ s.kc + 1 → m'.hist .cnt j = s.m.hist .cnt j := fun j hj => t10 _ _ (fun e => hj e.2)
  have hg : ∀ x j, x ≠ .cnt → m'.hist x j = s.m.hist x j := fun x j hx => t10 _ _ (fun e => hx e.1)
  have hg1 := fun j => hg .fin j (by decide)
  have hg2 := fun j => hg .q j (by decide)
  clear t5 t6 t7 t8 t9 t10 t13 t14 hm hq hg
  generalize hs' : ({ s with m := m', kc := s.kc + 1, nest := true, started := s.started + 1 } : St) = s'
  have n0 : s'.m = m' := by rw [← hs']
  have n1 : s'.st = s.st := by rw [← hs']
  have n2 : s'.f = s.f := by rw [← hs']
  have n3 : s'.r = s.r := by rw [← hs']
  have n4 : s'.drain = s.drain := by rw [← hs']
  have n5 : s'.b = s.b := by rw [← hs']
  have n6 : s'.left = s.left := by rw [← hs']
  have n7 : s'.nest = true := by rw [← hs']
  have n8 : s'.started = s.started + 1 := by rw [← hs']
  have n9 : s'.ran = s.ran := by rw [← hs']
  have n10 : s'.kc = s.kc + 1 := by rw [← hs']
  have n11 : s'.kf = s.kf := by rw [← hs']
  have n12 : s'.kq = s.kq := by rw [← hs']
  have n13 : s'.nq = s.nq := by rw [← hs']
  have n14 : s'.p2 = s.p2 := by rw [← hs']
  have hn := np_eq (c := c) n1
  clear hs'
  refine ⟨?_, ?_, ?_, ?_, by rw [n0]; exact hr⟩
  · clear k1 k2 k3 k4 k5 k6 k7 k8 w1 w2 w3 w4
    constructor
    all_goals grind [fw, fb]
  · clear k1 k2 k3 k4 k5 k6 k7 k8 w1 w2 w3 w4
    constructor
    all_goals grind [fw, fb]
  · clear k1 k2 k3 k4 k5 k6 k7 k8
    constructor
    all_goals grind [fw, fb]
  · clear v8 v9 v12 v13 v14 v15 v16 w1 w2 w3 w4
    constructor
    all_goals grind [fw, fb]

set_option maxHeartbeats 8000000 in
theorem i_npush {c : Cfg} {s : St} (h : Inv c s) {ts v : Nat} {m' : Mem Loc Acc} {o : Ord} (hp : s.r = .exec) (hn0 : s.nest = true) (hm : s.m.rmw conf o 0 .q ts (· + 1) (use (0)) = some (v, m')) : Inv c { s with m := m', kq := ts + 1, nq := s.nq + 1, nest := false } := by
  obtain ⟨c1, c2, c3, c4, c5, c6, c7, c8⟩ := h.ctl
  obtain ⟨v1, v2, v3, v4, v5, v6, v7, v8, v9, v10, v11, v12, v13, v14, v15, v16⟩ := h.v
  obtain ⟨w1, w2, w3, w4⟩ := h.w
  obtain ⟨k1, k2, k3, k4, k5, k6, k7, k8⟩ := h.k
  have hq : s.m.racy conf (0) (use (0)) = false := by
    rw [racy_false]; intro i' b hi' hc
    have e := k3 i' b hi'
    exfalso
    have e2 : s.r = .gone := by
      cases hb : b.what with
      | use => simp [conf, hb] at hc
      | destroy => exact e hb
    simp_all
  obtain ⟨g, t1, t2, t3, t4, t5, t6, t7, t8, t9, t10, g', t11, t12, t13, t14⟩ := rmw_spec hm
  have hts : ts = s.kq := by
    rcases Nat.lt_trichotomy ts s.kq with hl | hl | hl
    · exact absurd t4 (v4 (ts + 1) hl)
    · exact hl
    · rw [v3 _ hl] at t1; cases t1
  subst hts
  have hlog := fun k b => logged_snoc t5 k b
  have hlt := logged_lt s.m
  have hr : m'.race = false := by rw [t6, h.noRace, hq]; rfl
  clear h
  have mono : ∀ u k, (s.m.cur u).know k = true → (m'.cur u).know k = true := fun u k hk => by
    by_cases hu : u = 0
    · rw [hu, t8]; rw [hu] at hk; rw [hk]; rfl
    · rw [t7 u hu]; exact hk
  have hself : (m'.cur (0)).know s.m.log.length = true := by rw [t8]; simp
  have hacq : o.isAcq = true → ∀ k, g.view.know k = true → (m'.cur (0)).know k = true := fun ho k hk => by rw [t8, hk, ho]; simp
  have hrel : o.isRel = true → ∀ k, (m'.cur (0)).know k = true → g'.view.know k = true := fun ho k hk => by rw [t13, hk, ho]; simp
  have hch : ∀ k, g.view.know k = true → g'.view.know k = true := fun k hk => by rw [t13, hk]; rfl
  have hsn : ∀ u x, (s.m.cur u).seen x ≤ (m'.cur u).seen x := fun u x => by
    by_cases hu : u = 0
    · subst hu; rw [t9]
      by_cases hx : x = .q
      · rw [if_pos hx]; rw [hx]; omega
      · rw [if_neg hx]; omega
    · rw [t7 u hu]; exact Nat.le_refl _
  have hsl : s.kq + 1 ≤ (m'.cur (0)).seen .q := by rw [t9, if_pos rfl]; omega
  have hsa : o.isAcq = true → ∀ x, g.view.seen x ≤ (m'.cur (0)).seen x := fun ho x => by rw [t9, if_pos ho]; omega
  have hsr : o.isRel = true → ∀ x, (m'.cur (0)).seen x ≤ g'.view.seen x := fun ho x => by rw [t14, if_pos ho]; omega
  have hsc : ∀ x, g.view.seen x ≤ g'.view.seen x := fun x => by rw [t14]; omega
  have hf : ∀ j, j ≠ s.kq + 1 → m'.hist .q j = s.m.hist .q j := fun j hj => t10 _ _ (fun e => hj e.2)
  have hg : ∀ x j, x ≠ .q → m'.hist x j = s.m.hist x j := fun x j hx => t10 _ _ (fun e => hx e.1)
  have hg0 := fun j => hg .cnt j (by decide)
  have hg1 := fun j => hg .fin j (by decide)
  clear t5 t6 t7 t8 t9 t10 t13 t14 hm hq hg
  generalize hs' : ({ s with m := m', kq := s.kq + 1, nq := s.nq + 1, nest := false } : St) = s'
  have n0 : s'.m = m' := by rw [← hs']
  have n1 : s'.st = s.st := by rw [← hs']
  have n2 : s'.f = s.f := by rw [← hs']
  have n3 : s'.r = s.r := by rw [← hs']
  have n4 : s'.drain = s.drain := by rw [← hs']
  have n5 : s'.b = s.b := by rw [← hs']
  have n6 : s'.left = s.left := by rw [← hs']
  have n7 : s'.nest = false := by rw [← hs']
  have n8 : s'.started = s.started := by rw [← hs']
  have n9 : s'.ran = s.ran := by rw [← hs']
  have n10 : s'.kc = s.kc := by rw [← hs']
  have n11 : s'.kf = s.kf := by rw [← hs']
  have n12 : s'.kq = s.kq + 1 := by rw [← hs']
  have n13 : s'.nq = s.nq + 1 := by rw [← hs']
  have n14 : s'.p2 = s.p2 := by rw [← hs']
  have hn := np_eq (c := c) n1
  clear hs'
  refine ⟨?_, ?_, ?_, ?_, by rw [n0]; exact hr⟩
  · clear k1 k2 k3 k4 k5 k6 k7 k8 w1 w2 w3 w4
    constructor
    all_goals grind [fw, fb]
  · clear k1 k2 k3 k4 k5 k6 k7 k8 w1 w2 w3 w4
    constructor
    all_goals grind [fw, fb]
  · clear k1 k2 k3 k4 k5 k6 k7 k8
    constructor
    all_goals grind [fw, fb]
  · clear v8 v9 v12 v13 v14 v15 v16 w1 w2 w3 w4
    constructor
    all_goals grind [fw, fb]

set_option maxHeartbeats 8000000 in
theorem i_exit {c : Cfg} {s : St} (h : Inv c s) (hp : s.r = .exit) : Inv c { s with m := s.m.touch conf 0 ⟨0, .destroy⟩, r := .gone } := by
  obtain ⟨c1, c2, c3, c4, c5, c6, c7, c8⟩ := h.ctl
  obtain ⟨v1, v2, v3, v4, v5, v6, v7, v8, v9, v10, v11, v12, v13, v14, v15, v16⟩ := h.v
  obtain ⟨w1, w2, w3, w4⟩ := h.w
  obtain ⟨k1, k2, k3, k4, k5, k6, k7, k8⟩ := h.k
  have hq : s.m.racy conf 0 ⟨0, .destroy⟩ = false := by
    rw [racy_false]; intro i b hi hc
    exact k7 hp i b hi
  obtain ⟨t1, t2, t3, t4, t5, t6⟩ := touch_spec conf s.m (0) ⟨0, .destroy⟩
  have hlog := fun k b => logged_snoc t2 k b
  have hlt := logged_lt s.m
  have hr : (s.m.touch conf (0) ⟨0, .destroy⟩).race = false := by rw [t3, h.noRace, hq]; rfl
  clear h
  try simp only [use]
  generalize s.m.touch conf (0) ⟨0, .destroy⟩ = m' at *
  have hh : ∀ l j, m'.hist l j = s.m.hist l j := fun l j => by rw [t1]
  have mono : ∀ u k, (s.m.cur u).know k = true → (m'.cur u).know k = true := fun u k hk => by
    by_cases hu : u = 0
    · rw [hu, t5]; rw [hu] at hk; rw [hk]; rfl
    · rw [t4 u hu]; exact hk
  have hself : (m'.cur (0)).know s.m.log.length = true := by rw [t5]; simp
  have hsn : ∀ u x, (m'.cur u).seen x = (s.m.cur u).seen x := fun u x => by
    by_cases hu : u = 0
    · rw [hu, t6]
    · rw [t4 u hu]
  clear t1 t2 t3 t4 t5 t6 hq
  generalize hs' : ({ s with m := m', r := .gone } : St) = s'
  have n0 : s'.m = m' := by rw [← hs']
  have n1 : s'.st = s.st := by rw [← hs']
  have n2 : s'.f = s.f := by rw [← hs']
  have n3 : s'.r = .gone := by rw [← hs']
  have n4 : s'.drain = s.drain := by rw [← hs']
  have n5 : s'.b = s.b := by rw [← hs']
  have n6 : s'.left = s.left := by rw [← hs']
  have n7 : s'.nest = s.nest := by rw [← hs']
  have n8 : s'.started = s.started := by rw [← hs']
  have n9 : s'.ran = s.ran := by rw [← hs']
  have n10 : s'.kc = s.kc := by rw [← hs']
  have n11 : s'.kf = s.kf := by rw [← hs']
  have n12 : s'.kq = s.kq := by rw [← hs']
  have n13 : s'.nq = s.nq := by rw [← hs']
  have n14 : s'.p2 = s.p2 := by rw [← hs']
  have hn := np_eq (c := c) n1
  clear hs'
  refine ⟨?_, ?_, ?_, ?_, by rw [n0]; exact hr⟩
  · clear k1 k2 k3 k4 k5 k6 k7 k8 w1 w2 w3 w4
    constructor
    all_goals grind [fw, fb]
  · clear k1 k2 k3 k4 k5 k6 k7 k8 w1 w2 w3 w4
    constructor
    all_goals grind [fw, fb]
  · clear k1 k2 k3 k4 k5 k6 k7 k8
    constructor
    all_goals grind [fw, fb]
  · clear v8 v9 v12 v13 v14 v15 v16 w1 w2 w3 w4
    constructor
    all_goals grind [fw, fb]

end Verif.WmLoop
