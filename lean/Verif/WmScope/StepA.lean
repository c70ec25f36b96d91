import Verif.WmScope.Inv
/-!
# Counting scopes under the C++ memory model — steps (C99)
-/
namespace Verif.WmScope

open Verif.WM

set_option maxHeartbeats 8000000 in
theorem i_close {c : Cfg} {s : St} (h : Inv c s) {ts v : Nat} {m' : Mem Loc Acc} {o : Ord} (hp : s.d = .live) (hm : s.m.rmw conf o (0) .bits ts fCls ⟨0, .bits⟩ = some (v, m')) : Inv c { s with m := m', kb := ts + 1, cls := true } := by
  have hpos := fun i => na_pos h.ctl (i := i)
  obtain ⟨c1, c2, c3, c4, c5, c6, c7, c8, c9, c10⟩ := h.ctl
  obtain ⟨j1, j2, j3, j4, j5, j6, j7, j8, j9, j10, j11, j12, j13, j14, j15, j16⟩ := h.j
  obtain ⟨v1, v2, v3, v4, v5, v6, v7, v8, v9, v10, v11, v12, v13, v14, v15⟩ := h.v
  obtain ⟨k1, k2, k3, k4, k5, k6, k7, k8, k9, k10, k11, k12, k13, k14, k15, k16, k17, k18, k19, k20, k21, k22⟩ := h.k
  have hq : s.m.racy conf (0) ⟨0, .bits⟩ = false := by
    rw [racy_false]; intro x b hx hc
    exfalso
    have e2 : s.d = .gone := by
      cases hb : b.what with
      | destroy => exact k5 x b hx hb
      | _ => simp [conf, hb] at hc
    simp_all
  obtain ⟨g, t1, t2, t3, t4, t5, t6, t7, t8, t9, t10, g', t11, t12, t13, t14⟩ := rmw_spec hm
  have hts : ts = s.kb := by
    rcases Nat.lt_trichotomy ts s.kb with hl | hl | hl
    · exact absurd t4 (v2 (ts + 1) hl)
    · exact hl
    · rw [v1 _ hl] at t1; cases t1
  subst hts
  have hlog := fun k b => logged_snoc t5 k b
  have hlt := logged_lt s.m
  have hr : m'.race = false := by rw [t6, h.noRace, hq]; rfl
  clear h
  have mono : ∀ u k, (s.m.cur u).know k = true → (m'.cur u).know k = true := fun u k hk => by
    by_cases hu : u = 0
    · rw [hu, t8]; rw [hu] at hk; rw [hk]; rfl
    · rw [t7 u hu]; exact hk
  have hself : (m'.cur (0)).know s.m.log.length = true := by rw [t8]; simp
  have hacq : o.isAcq = true → ∀ k, g.view.know k = true → (m'.cur (0)).know k = true := fun ho k hk => by rw [t8, hk, ho]; simp
  have hrel : o.isRel = true → ∀ k, (m'.cur (0)).know k = true → g'.view.know k = true := fun ho k hk => by rw [t13, hk, ho]; simp
  have hch : ∀ k, g.view.know k = true → g'.view.know k = true := fun k hk => by rw [t13, hk]; rfl
  have hsn : ∀ u x, (s.m.cur u).seen x ≤ (m'.cur u).seen x := fun u x => by
    by_cases hu : u = 0
    · subst hu; rw [t9]
      by_cases hx : x = .bits
      · rw [if_pos hx]; rw [hx]; omega
      · rw [if_neg hx]; omega
    · rw [t7 u hu]; exact Nat.le_refl _
  have hsl : s.kb + 1 ≤ (m'.cur (0)).seen .bits := by rw [t9, if_pos rfl]; omega
  have hsa : o.isAcq = true → ∀ x, g.view.seen x ≤ (m'.cur (0)).seen x := fun ho x => by rw [t9, if_pos ho]; omega
  have hsr : o.isRel = true → ∀ x, (m'.cur (0)).seen x ≤ g'.view.seen x := fun ho x => by rw [t14, if_pos ho]; omega
  have hsc : ∀ x, g.view.seen x ≤ g'.view.seen x := fun x => by rw [t14]; omega
  have hf : ∀ j, j ≠ s.kb + 1 → m'.hist .bits j = s.m.hist .bits j := fun j hj => t10 _ _ (fun e => hj e.2)
  have hg : ∀ x j, x ≠ .bits → m'.hist x j = s.m.hist x j := fun x j hx => t10 _ _ (fun e => hx e.1)
  have hgo := fun j => hg .head j (by decide)
  clear t5 t6 t7 t8 t9 t10 t13 t14 hm hq hg
  have hv : v = enc s.cnt s.jng s.need s.cls := by rw [t2]; exact v5 g t1
  rw [← t2, hv, fCls_enc] at t12
  generalize hs' : ({ s with m := m', kb := s.kb + 1, cls := true } : St) = s'
  have n0 : s'.m = m' := by rw [← hs']
  have n1 : s'.st = s.st := by rw [← hs']
  have n2 : s'.jc = s.jc := by rw [← hs']
  have n3 : s'.d = s.d := by rw [← hs']
  have n4 : s'.term = s.term := by rw [← hs']
  have n5 : s'.lst = s.lst := by rw [← hs']
  have n6 : s'.todo = s.todo := by rw [← hs']
  have n7 : s'.cv = s.cv := by rw [← hs']
  have n8 : s'.met = s.met := by rw [← hs']
  have n9 : s'.kb = s.kb + 1 := by rw [← hs']
  have n10 : s'.kh = s.kh := by rw [← hs']
  have n11 : s'.cnt = s.cnt := by rw [← hs']
  have n12 : s'.jng = s.jng := by rw [← hs']
  have n13 : s'.need = s.need := by rw [← hs']
  have n14 : s'.cls = true := by rw [← hs']
  have n15 : s'.jd = s.jd := by rw [← hs']
  have n16 : s'.pJ = s.pJ := by rw [← hs']
  have n17 : s'.hc = s.hc := by rw [← hs']
  have n18 : s'.jw = s.jw := by rw [← hs']
  have n19 : s'.via = s.via := by rw [← hs']
  have hn := na_eq (c := c) n1
  clear hs'
  have p1 : ∀ y, s'.st y = s.st y := fun y => by rw [n1]
  clear n1
  have p2 : ∀ y, s'.jc y = s.jc y := fun y => by rw [n2]
  clear n2
  have p7 : ∀ y, s'.cv y = s.cv y := fun y => by rw [n7]
  clear n7
  have p8 : ∀ y, s'.met y = s.met y := fun y => by rw [n8]
  clear n8
  have p19 : ∀ y, s'.via y = s.via y := fun y => by rw [n19]
  clear n19
  refine ⟨?_, ?_, ?_, ?_, by rw [n0]; exact hr⟩
  · clear k1 k2 k3 k4 k5 k6 k7 k8 k9 k10 k11 k12 k13 k14 k15 k16 k17 k18 k19 k20 k21 k22 v1 v2 v3 v4 v5 v6 v7 v8 v9 v10 v11 v12 v13 v14 v15
    constructor
    all_goals first | grind
  · clear k1 k2 k3 k4 k5 k6 k7 k8 k9 k10 k11 k12 k13 k14 k15 k16 k17 k18 k19 k20 k21 k22 v1 v2 v3 v4 v5 v6 v7 v8 v9 v10 v11 v12 v13 v14 v15
    constructor
    all_goals first | grind
  · clear k1 k2 k3 k4 k5 k6 k7 k8 k9 k10 k11 k12 k13 k14 k15 k16 k17 k18 k19 k20 k21 k22
    constructor
    all_goals first | grind
  · clear v5 v6 v8 v9 v10 v11 v12 v13 v14 v15
    constructor
    all_goals first | grind [early]

set_option maxHeartbeats 8000000 in
theorem i_assoc {c : Cfg} {s : St} (h : Inv c s) {ts v : Nat} {m' : Mem Loc Acc} {o : Ord} {i : Nat} (hi : i < c.n) (hp : s.st i = .idle) (hd : s.d = .live) (hv0 : v % 2 = 0) (hm : s.m.rmw conf o (ta i) .bits ts fInc ⟨ta i, .bits⟩ = some (v, m')) : Inv c { s with m := m', kb := ts + 1, cnt := s.cnt + 1, need := true, st := upd s.st i .act } := by
  have hpos := fun i => na_pos h.ctl (i := i)
  obtain ⟨c1, c2, c3, c4, c5, c6, c7, c8, c9, c10⟩ := h.ctl
  obtain ⟨j1, j2, j3, j4, j5, j6, j7, j8, j9, j10, j11, j12, j13, j14, j15, j16⟩ := h.j
  obtain ⟨v1, v2, v3, v4, v5, v6, v7, v8, v9, v10, v11, v12, v13, v14, v15⟩ := h.v
  obtain ⟨k1, k2, k3, k4, k5, k6, k7, k8, k9, k10, k11, k12, k13, k14, k15, k16, k17, k18, k19, k20, k21, k22⟩ := h.k
  have hq : s.m.racy conf (ta i) ⟨ta i, .bits⟩ = false := by
    rw [racy_false]; intro x b hx hc
    exfalso
    have e2 : s.d = .gone := by
      cases hb : b.what with
      | destroy => exact k5 x b hx hb
      | _ => simp [conf, hb] at hc
    simp_all
  obtain ⟨g, t1, t2, t3, t4, t5, t6, t7, t8, t9, t10, g', t11, t12, t13, t14⟩ := rmw_spec hm
  have hts : ts = s.kb := by
    rcases Nat.lt_trichotomy ts s.kb with hl | hl | hl
    · exact absurd t4 (v2 (ts + 1) hl)
    · exact hl
    · rw [v1 _ hl] at t1; cases t1
  subst hts
  have hlog := fun k b => logged_snoc t5 k b
  have hlt := logged_lt s.m
  have hr : m'.race = false := by rw [t6, h.noRace, hq]; rfl
  clear h
  have mono : ∀ u k, (s.m.cur u).know k = true → (m'.cur u).know k = true := fun u k hk => by
    by_cases hu : u = ta i
    · rw [hu, t8]; rw [hu] at hk; rw [hk]; rfl
    · rw [t7 u hu]; exact hk
  have hself : (m'.cur (ta i)).know s.m.log.length = true := by rw [t8]; simp
  have hacq : o.isAcq = true → ∀ k, g.view.know k = true → (m'.cur (ta i)).know k = true := fun ho k hk => by rw [t8, hk, ho]; simp
  have hrel : o.isRel = true → ∀ k, (m'.cur (ta i)).know k = true → g'.view.know k = true := fun ho k hk => by rw [t13, hk, ho]; simp
  have hch : ∀ k, g.view.know k = true → g'.view.know k = true := fun k hk => by rw [t13, hk]; rfl
  have hsn : ∀ u x, (s.m.cur u).seen x ≤ (m'.cur u).seen x := fun u x => by
    by_cases hu : u = ta i
    · subst hu; rw [t9]
      by_cases hx : x = .bits
      · rw [if_pos hx]; rw [hx]; omega
      · rw [if_neg hx]; omega
    · rw [t7 u hu]; exact Nat.le_refl _
  have hsl : s.kb + 1 ≤ (m'.cur (ta i)).seen .bits := by rw [t9, if_pos rfl]; omega
  have hsa : o.isAcq = true → ∀ x, g.view.seen x ≤ (m'.cur (ta i)).seen x := fun ho x => by rw [t9, if_pos ho]; omega
  have hsr : o.isRel = true → ∀ x, (m'.cur (ta i)).seen x ≤ g'.view.seen x := fun ho x => by rw [t14, if_pos ho]; omega
  have hsc : ∀ x, g.view.seen x ≤ g'.view.seen x := fun x => by rw [t14]; omega
  have hf : ∀ j, j ≠ s.kb + 1 → m'.hist .bits j = s.m.hist .bits j := fun j hj => t10 _ _ (fun e => hj e.2)
  have hg : ∀ x j, x ≠ .bits → m'.hist x j = s.m.hist x j := fun x j hx => t10 _ _ (fun e => hx e.1)
  have hgo := fun j => hg .head j (by decide)
  clear t5 t6 t7 t8 t9 t10 t13 t14 hm hq hg
  have hv : v = enc s.cnt s.jng s.need s.cls := by rw [t2]; exact v5 g t1
  rw [← t2, hv, fInc_enc] at t12
  have hcl : s.cls = false := by rw [hv, enc_mod] at hv0; cases hx : s.cls <;> simp [hx] at hv0 ⊢
  generalize hs' : ({ s with m := m', kb := s.kb + 1, cnt := s.cnt + 1, need := true, st := upd s.st i .act } : St) = s'
  have n0 : s'.m = m' := by rw [← hs']
  have n1 : s'.st = upd s.st i .act := by rw [← hs']
  have n2 : s'.jc = s.jc := by rw [← hs']
  have n3 : s'.d = s.d := by rw [← hs']
  have n4 : s'.term = s.term := by rw [← hs']
  have n5 : s'.lst = s.lst := by rw [← hs']
  have n6 : s'.todo = s.todo := by rw [← hs']
  have n7 : s'.cv = s.cv := by rw [← hs']
  have n8 : s'.met = s.met := by rw [← hs']
  have n9 : s'.kb = s.kb + 1 := by rw [← hs']
  have n10 : s'.kh = s.kh := by rw [← hs']
  have n11 : s'.cnt = s.cnt + 1 := by rw [← hs']
  have n12 : s'.jng = s.jng := by rw [← hs']
  have n13 : s'.need = true := by rw [← hs']
  have n14 : s'.cls = s.cls := by rw [← hs']
  have n15 : s'.jd = s.jd := by rw [← hs']
  have n16 : s'.pJ = s.pJ := by rw [← hs']
  have n17 : s'.hc = s.hc := by rw [← hs']
  have n18 : s'.jw = s.jw := by rw [← hs']
  have n19 : s'.via = s.via := by rw [← hs']
  have hn := na_add (c := c) hi (by simp [hp]) n1
  clear hs'
  have p1 : ∀ y, s'.st y = if y = i then .act else s.st y := fun y => by rw [n1, upd_apply]
  clear n1
  have p2 : ∀ y, s'.jc y = s.jc y := fun y => by rw [n2]
  clear n2
  have p7 : ∀ y, s'.cv y = s.cv y := fun y => by rw [n7]
  clear n7
  have p8 : ∀ y, s'.met y = s.met y := fun y => by rw [n8]
  clear n8
  have p19 : ∀ y, s'.via y = s.via y := fun y => by rw [n19]
  clear n19
  have hz1 : (ta i) % 2 = 1 ∧ (ta i) / 2 = i := by simp only [ta]; omega
  refine ⟨?_, ?_, ?_, ?_, by rw [n0]; exact hr⟩
  · clear k1 k2 k3 k4 k5 k6 k7 k8 k9 k10 k11 k12 k13 k14 k15 k16 k17 k18 k19 k20 k21 k22 v1 v2 v3 v4 v5 v6 v7 v8 v9 v10 v11 v12 v13 v14 v15
    constructor
    all_goals first | grind
  · clear k1 k2 k3 k4 k5 k6 k7 k8 k9 k10 k11 k12 k13 k14 k15 k16 k17 k18 k19 k20 k21 k22 v1 v2 v3 v4 v5 v6 v7 v8 v9 v10 v11 v12 v13 v14 v15
    constructor
    all_goals first | grind
  · clear k1 k2 k3 k4 k5 k6 k7 k8 k9 k10 k11 k12 k13 k14 k15 k16 k17 k18 k19 k20 k21 k22
    constructor
    all_goals first | grind
  · clear v5 v6 v8 v9 v10 v11 v12 v13 v14 v15
    constructor
    all_goals first | grind [early]

set_option maxHeartbeats 8000000 in
theorem i_work {c : Cfg} {s : St} (h : Inv c s) {i : Nat} (hp : s.st i = .act) : Inv c { s with m := s.m.touch conf (ta i) ⟨ta i, .work⟩ } := by
  have hpos := fun i => na_pos h.ctl (i := i)
  obtain ⟨c1, c2, c3, c4, c5, c6, c7, c8, c9, c10⟩ := h.ctl
  obtain ⟨j1, j2, j3, j4, j5, j6, j7, j8, j9, j10, j11, j12, j13, j14, j15, j16⟩ := h.j
  obtain ⟨v1, v2, v3, v4, v5, v6, v7, v8, v9, v10, v11, v12, v13, v14, v15⟩ := h.v
  obtain ⟨k1, k2, k3, k4, k5, k6, k7, k8, k9, k10, k11, k12, k13, k14, k15, k16, k17, k18, k19, k20, k21, k22⟩ := h.k
  have hq : s.m.racy conf (ta i) ⟨ta i, .work⟩ = false := by
    rw [racy_false]; intro x b hx hc
    exfalso
    have e2 : s.d = .gone := by
      cases hb : b.what with
      | destroy => exact k5 x b hx hb
      | _ => simp [conf, hb] at hc
    have e3 := hpos _ hp
    have e4 := j13 (by simp [e2])
    have := (c4 e4).1; omega
  obtain ⟨t1, t2, t3, t4, t5, t6⟩ := touch_spec conf s.m (ta i) ⟨ta i, .work⟩
  have hlog := fun k b => logged_snoc t2 k b
  have hlt := logged_lt s.m
  have hr : (s.m.touch conf (ta i) ⟨ta i, .work⟩).race = false := by rw [t3, h.noRace, hq]; rfl
  clear h
  try simp only [use]
  generalize s.m.touch conf (ta i) ⟨ta i, .work⟩ = m' at *
  have hh : ∀ l j, m'.hist l j = s.m.hist l j := fun l j => by rw [t1]
  have mono : ∀ u k, (s.m.cur u).know k = true → (m'.cur u).know k = true := fun u k hk => by
    by_cases hu : u = ta i
    · rw [hu, t5]; rw [hu] at hk; rw [hk]; rfl
    · rw [t4 u hu]; exact hk
  have hself : (m'.cur (ta i)).know s.m.log.length = true := by rw [t5]; simp
  have hsn : ∀ u x, (m'.cur u).seen x = (s.m.cur u).seen x := fun u x => by
    by_cases hu : u = ta i
    · rw [hu, t6]
    · rw [t4 u hu]
  clear t1 t2 t3 t4 t5 t6 hq
  generalize hs' : ({ s with m := m' } : St) = s'
  have n0 : s'.m = m' := by rw [← hs']
  have n1 : s'.st = s.st := by rw [← hs']
  have n2 : s'.jc = s.jc := by rw [← hs']
  have n3 : s'.d = s.d := by rw [← hs']
  have n4 : s'.term = s.term := by rw [← hs']
  have n5 : s'.lst = s.lst := by rw [← hs']
  have n6 : s'.todo = s.todo := by rw [← hs']
  have n7 : s'.cv = s.cv := by rw [← hs']
  have n8 : s'.met = s.met := by rw [← hs']
  have n9 : s'.kb = s.kb := by rw [← hs']
  have n10 : s'.kh = s.kh := by rw [← hs']
  have n11 : s'.cnt = s.cnt := by rw [← hs']
  have n12 : s'.jng = s.jng := by rw [← hs']
  have n13 : s'.need = s.need := by rw [← hs']
  have n14 : s'.cls = s.cls := by rw [← hs']
  have n15 : s'.jd = s.jd := by rw [← hs']
  have n16 : s'.pJ = s.pJ := by rw [← hs']
  have n17 : s'.hc = s.hc := by rw [← hs']
  have n18 : s'.jw = s.jw := by rw [← hs']
  have n19 : s'.via = s.via := by rw [← hs']
  have hn := na_eq (c := c) n1
  clear hs'
  have p1 : ∀ y, s'.st y = s.st y := fun y => by rw [n1]
  clear n1
  have p2 : ∀ y, s'.jc y = s.jc y := fun y => by rw [n2]
  clear n2
  have p7 : ∀ y, s'.cv y = s.cv y := fun y => by rw [n7]
  clear n7
  have p8 : ∀ y, s'.met y = s.met y := fun y => by rw [n8]
  clear n8
  have p19 : ∀ y, s'.via y = s.via y := fun y => by rw [n19]
  clear n19
  have hz1 : (ta i) % 2 = 1 ∧ (ta i) / 2 = i := by simp only [ta]; omega
  refine ⟨?_, ?_, ?_, ?_, by rw [n0]; exact hr⟩
  · clear k1 k2 k3 k4 k5 k6 k7 k8 k9 k10 k11 k12 k13 k14 k15 k16 k17 k18 k19 k20 k21 k22 v1 v2 v3 v4 v5 v6 v7 v8 v9 v10 v11 v12 v13 v14 v15
    constructor
    all_goals first | grind
  · clear k1 k2 k3 k4 k5 k6 k7 k8 k9 k10 k11 k12 k13 k14 k15 k16 k17 k18 k19 k20 k21 k22 v1 v2 v3 v4 v5 v6 v7 v8 v9 v10 v11 v12 v13 v14 v15
    constructor
    all_goals first | grind
  · clear k1 k2 k3 k4 k5 k6 k7 k8 k9 k10 k11 k12 k13 k14 k15 k16 k17 k18 k19 k20 k21 k22
    constructor
    all_goals first | grind
  · clear v5 v6 v8 v9 v10 v11 v12 v13 v14 v15
    constructor
    all_goals first | grind [early]

set_option maxHeartbeats 8000000 in
theorem i_dis1 {c : Cfg} {s : St} (h : Inv c s) {ts v : Nat} {m' : Mem Loc Acc} {o : Ord} {i : Nat} (hoa : o.isAcq = true) (hor : o.isRel = true) (hp : s.st i = .act) (hv1 : fDec v = 1) (hm : s.m.rmw conf o (ta i) .bits ts fDec ⟨ta i, .bits⟩ = some (v, m')) : Inv c { s with m := m', kb := ts + 1, cnt := 0, jng := false, need := false, cls := true, jd := true, pJ := ts + 1, st := upd s.st i .deq } := by
  have hpos := fun i => na_pos h.ctl (i := i)
  obtain ⟨c1, c2, c3, c4, c5, c6, c7, c8, c9, c10⟩ := h.ctl
  obtain ⟨j1, j2, j3, j4, j5, j6, j7, j8, j9, j10, j11, j12, j13, j14, j15, j16⟩ := h.j
  obtain ⟨v1, v2, v3, v4, v5, v6, v7, v8, v9, v10, v11, v12, v13, v14, v15⟩ := h.v
  obtain ⟨k1, k2, k3, k4, k5, k6, k7, k8, k9, k10, k11, k12, k13, k14, k15, k16, k17, k18, k19, k20, k21, k22⟩ := h.k
  have hq : s.m.racy conf (ta i) ⟨ta i, .bits⟩ = false := by
    rw [racy_false]; intro x b hx hc
    exfalso
    have e2 : s.d = .gone := by
      cases hb : b.what with
      | destroy => exact k5 x b hx hb
      | _ => simp [conf, hb] at hc
    have e3 := hpos _ hp
    have e4 := j13 (by simp [e2])
    have := (c4 e4).1; omega
  obtain ⟨g, t1, t2, t3, t4, t5, t6, t7, t8, t9, t10, g', t11, t12, t13, t14⟩ := rmw_spec hm
  have hts : ts = s.kb := by
    rcases Nat.lt_trichotomy ts s.kb with hl | hl | hl
    · exact absurd t4 (v2 (ts + 1) hl)
    · exact hl
    · rw [v1 _ hl] at t1; cases t1
  subst hts
  have hlog := fun k b => logged_snoc t5 k b
  have hlt := logged_lt s.m
  have hr : m'.race = false := by rw [t6, h.noRace, hq]; rfl
  clear h
  have mono : ∀ u k, (s.m.cur u).know k = true → (m'.cur u).know k = true := fun u k hk => by
    by_cases hu : u = ta i
    · rw [hu, t8]; rw [hu] at hk; rw [hk]; rfl
    · rw [t7 u hu]; exact hk
  have hself : (m'.cur (ta i)).know s.m.log.length = true := by rw [t8]; simp
  have hacq : o.isAcq = true → ∀ k, g.view.know k = true → (m'.cur (ta i)).know k = true := fun ho k hk => by rw [t8, hk, ho]; simp
  have hrel : o.isRel = true → ∀ k, (m'.cur (ta i)).know k = true → g'.view.know k = true := fun ho k hk => by rw [t13, hk, ho]; simp
  have hch : ∀ k, g.view.know k = true → g'.view.know k = true := fun k hk => by rw [t13, hk]; rfl
  have hsn : ∀ u x, (s.m.cur u).seen x ≤ (m'.cur u).seen x := fun u x => by
    by_cases hu : u = ta i
    · subst hu; rw [t9]
      by_cases hx : x = .bits
      · rw [if_pos hx]; rw [hx]; omega
      · rw [if_neg hx]; omega
    · rw [t7 u hu]; exact Nat.le_refl _
  have hsl : s.kb + 1 ≤ (m'.cur (ta i)).seen .bits := by rw [t9, if_pos rfl]; omega
  have hsa : o.isAcq = true → ∀ x, g.view.seen x ≤ (m'.cur (ta i)).seen x := fun ho x => by rw [t9, if_pos ho]; omega
  have hsr : o.isRel = true → ∀ x, (m'.cur (ta i)).seen x ≤ g'.view.seen x := fun ho x => by rw [t14, if_pos ho]; omega
  have hsc : ∀ x, g.view.seen x ≤ g'.view.seen x := fun x => by rw [t14]; omega
  have hf : ∀ j, j ≠ s.kb + 1 → m'.hist .bits j = s.m.hist .bits j := fun j hj => t10 _ _ (fun e => hj e.2)
  have hg : ∀ x j, x ≠ .bits → m'.hist x j = s.m.hist x j := fun x j hx => t10 _ _ (fun e => hx e.1)
  have hgo := fun j => hg .head j (by decide)
  clear t5 t6 t7 t8 t9 t10 t13 t14 hm hq hg
  have hv : v = enc s.cnt s.jng s.need s.cls := by rw [t2]; exact v5 g t1
  rw [← t2, hv, fDec_enc] at t12
  have hcp := hpos i hp
  have hnd := c2 hcp
  have hlt' : i < c.n := by
    rcases Nat.lt_or_ge i c.n with hl | hl
    · exact hl
    · have := c9 i hl; rw [hp] at this; cases this
  have hj : s.cnt = 1 ∧ s.jng = true := by
    rw [hv, fDec_enc] at hv1
    by_cases e : s.cnt = 1 ∧ s.jng = true
    · exact e
    · rw [if_neg e] at hv1
      have := (enc_one _ _ _ _ hv1).2.2.1
      rw [hnd] at this; cases this
  rw [if_pos hj] at t12
  have hej := enc_joined
  generalize hs' : ({ s with m := m', kb := s.kb + 1, cnt := 0, jng := false, need := false, cls := true, jd := true, pJ := s.kb + 1, st := upd s.st i .deq } : St) = s'
  have n0 : s'.m = m' := by rw [← hs']
  have n1 : s'.st = upd s.st i .deq := by rw [← hs']
  have n2 : s'.jc = s.jc := by rw [← hs']
  have n3 : s'.d = s.d := by rw [← hs']
  have n4 : s'.term = s.term := by rw [← hs']
  have n5 : s'.lst = s.lst := by rw [← hs']
  have n6 : s'.todo = s.todo := by rw [← hs']
  have n7 : s'.cv = s.cv := by rw [← hs']
  have n8 : s'.met = s.met := by rw [← hs']
  have n9 : s'.kb = s.kb + 1 := by rw [← hs']
  have n10 : s'.kh = s.kh := by rw [← hs']
  have n11 : s'.cnt = 0 := by rw [← hs']
  have n12 : s'.jng = false := by rw [← hs']
  have n13 : s'.need = false := by rw [← hs']
  have n14 : s'.cls = true := by rw [← hs']
  have n15 : s'.jd = true := by rw [← hs']
  have n16 : s'.pJ = s.kb + 1 := by rw [← hs']
  have n17 : s'.hc = s.hc := by rw [← hs']
  have n18 : s'.jw = s.jw := by rw [← hs']
  have n19 : s'.via = s.via := by rw [← hs']
  have hn := na_sub (c := c) hlt' hp (x := .deq) (by decide) n1
  clear hs'
  have p1 : ∀ y, s'.st y = if y = i then .deq else s.st y := fun y => by rw [n1, upd_apply]
  clear n1
  have p2 : ∀ y, s'.jc y = s.jc y := fun y => by rw [n2]
  clear n2
  have p7 : ∀ y, s'.cv y = s.cv y := fun y => by rw [n7]
  clear n7
  have p8 : ∀ y, s'.met y = s.met y := fun y => by rw [n8]
  clear n8
  have p19 : ∀ y, s'.via y = s.via y := fun y => by rw [n19]
  clear n19
  have hz1 : (ta i) % 2 = 1 ∧ (ta i) / 2 = i := by simp only [ta]; omega
  refine ⟨?_, ?_, ?_, ?_, by rw [n0]; exact hr⟩
  · clear k1 k2 k3 k4 k5 k6 k7 k8 k9 k10 k11 k12 k13 k14 k15 k16 k17 k18 k19 k20 k21 k22 v1 v2 v3 v4 v5 v6 v7 v8 v9 v10 v11 v12 v13 v14 v15
    constructor
    all_goals first | grind
  · clear k1 k2 k3 k4 k5 k6 k7 k8 k9 k10 k11 k12 k13 k14 k15 k16 k17 k18 k19 k20 k21 k22 v1 v2 v3 v4 v5 v6 v7 v8 v9 v10 v11 v12 v13 v14 v15
    constructor
    all_goals first | grind
  · clear k1 k2 k3 k4 k5 k6 k7 k8 k9 k10 k11 k12 k13 k14 k15 k16 k17 k18 k19 k20 k21 k22
    constructor
    all_goals first | grind
  · clear v5 v6 v8 v9 v10 v11 v12 v13 v14 v15
    constructor
    case k5 =>
      intro x a j hs hl ha he
      have hnz : na c s' = 0 := by omega
      have hoth : ∀ l, s'.st l ≠ .act := fun l hl => by
        simp only [na] at hnz
        rw [cnt_zero_iff] at hnz
        by_cases e : l < c.n
        · have := hnz l e; simp [hl] at this
        · have e1 := p1 l
          rw [if_neg (by omega), c9 l (by omega), hl] at e1; cases e1
      have hji : j = i := by
        have e1 := p1 j
        by_cases e : j = i
        · exact e
        · rw [if_neg e] at e1
          rw [e1] at hs
          have : s.jd = true := by
            rcases hs with hs | hs
            · exact (c5 j hs).1
            · exact c7 (c6 j hs)
          have := (c4 this).1
          omega
      subst hji
      rw [n0] at hl ⊢
      rcases (hlog x a).mp hl with hl | ⟨rfl, rfl⟩
      · by_cases e : a.who / 2 = j
        · have e2 : a.who = ta j := by simp only [ta]; omega
          have := mono _ _ (k1 x a hl); rw [e2] at this; exact this
        · have e1 := p1 (a.who / 2)
          rw [if_neg e] at e1
          exact hacq hoa x (k6 x a g hl ha he (fun e3 => hoth _ (e1.trans e3)) t1)
      · exact hself
    all_goals first | grind [early]

set_option maxHeartbeats 8000000 in
theorem i_dis0 {c : Cfg} {s : St} (h : Inv c s) {ts v : Nat} {m' : Mem Loc Acc} {o : Ord} {i : Nat} (hor : o.isRel = true) (hp : s.st i = .act) (hv1 : fDec v ≠ 1) (hm : s.m.rmw conf o (ta i) .bits ts fDec ⟨ta i, .bits⟩ = some (v, m')) : Inv c { s with m := m', kb := ts + 1, cnt := s.cnt - 1, st := upd s.st i .fin } := by
  have hpos := fun i => na_pos h.ctl (i := i)
  obtain ⟨c1, c2, c3, c4, c5, c6, c7, c8, c9, c10⟩ := h.ctl
  obtain ⟨j1, j2, j3, j4, j5, j6, j7, j8, j9, j10, j11, j12, j13, j14, j15, j16⟩ := h.j
  obtain ⟨v1, v2, v3, v4, v5, v6, v7, v8, v9, v10, v11, v12, v13, v14, v15⟩ := h.v
  obtain ⟨k1, k2, k3, k4, k5, k6, k7, k8, k9, k10, k11, k12, k13, k14, k15, k16, k17, k18, k19, k20, k21, k22⟩ := h.k
  have hq : s.m.racy conf (ta i) ⟨ta i, .bits⟩ = false := by
    rw [racy_false]; intro x b hx hc
    exfalso
    have e2 : s.d = .gone := by
      cases hb : b.what with
      | destroy => exact k5 x b hx hb
      | _ => simp [conf, hb] at hc
    have e3 := hpos _ hp
    have e4 := j13 (by simp [e2])
    have := (c4 e4).1; omega
  obtain ⟨g, t1, t2, t3, t4, t5, t6, t7, t8, t9, t10, g', t11, t12, t13, t14⟩ := rmw_spec hm
  have hts : ts = s.kb := by
    rcases Nat.lt_trichotomy ts s.kb with hl | hl | hl
    · exact absurd t4 (v2 (ts + 1) hl)
    · exact hl
    · rw [v1 _ hl] at t1; cases t1
  subst hts
  have hlog := fun k b => logged_snoc t5 k b
  have hlt := logged_lt s.m
  have hr : m'.race = false := by rw [t6, h.noRace, hq]; rfl
  clear h
  have mono : ∀ u k, (s.m.cur u).know k = true → (m'.cur u).know k = true := fun u k hk => by
    by_cases hu : u = ta i
    · rw [hu, t8]; rw [hu] at hk; rw [hk]; rfl
    · rw [t7 u hu]; exact hk
  have hself : (m'.cur (ta i)).know s.m.log.length = true := by rw [t8]; simp
  have hacq : o.isAcq = true → ∀ k, g.view.know k = true → (m'.cur (ta i)).know k = true := fun ho k hk => by rw [t8, hk, ho]; simp
  have hrel : o.isRel = true → ∀ k, (m'.cur (ta i)).know k = true → g'.view.know k = true := fun ho k hk => by rw [t13, hk, ho]; simp
  have hch : ∀ k, g.view.know k = true → g'.view.know k = true := fun k hk => by rw [t13, hk]; rfl
  have hsn : ∀ u x, (s.m.cur u).seen x ≤ (m'.cur u).seen x := fun u x => by
    by_cases hu : u = ta i
    · subst hu; rw [t9]
      by_cases hx : x = .bits
      · rw [if_pos hx]; rw [hx]; omega
      · rw [if_neg hx]; omega
    · rw [t7 u hu]; exact Nat.le_refl _
  have hsl : s.kb + 1 ≤ (m'.cur (ta i)).seen .bits := by rw [t9, if_pos rfl]; omega
  have hsa : o.isAcq = true → ∀ x, g.view.seen x ≤ (m'.cur (ta i)).seen x := fun ho x => by rw [t9, if_pos ho]; omega
  have hsr : o.isRel = true → ∀ x, (m'.cur (ta i)).seen x ≤ g'.view.seen x := fun ho x => by rw [t14, if_pos ho]; omega
  have hsc : ∀ x, g.view.seen x ≤ g'.view.seen x := fun x => by rw [t14]; omega
  have hf : ∀ j, j ≠ s.kb + 1 → m'.hist .bits j = s.m.hist .bits j := fun j hj => t10 _ _ (fun e => hj e.2)
  have hg : ∀ x j, x ≠ .bits → m'.hist x j = s.m.hist x j := fun x j hx => t10 _ _ (fun e => hx e.1)
  have hgo := fun j => hg .head j (by decide)
  clear t5 t6 t7 t8 t9 t10 t13 t14 hm hq hg
  have hv : v = enc s.cnt s.jng s.need s.cls := by rw [t2]; exact v5 g t1
  rw [← t2, hv, fDec_enc] at t12
  have hcp := hpos i hp
  have hnd := c2 hcp
  have hlt' : i < c.n := by
    rcases Nat.lt_or_ge i c.n with hl | hl
    · exact hl
    · have := c9 i hl; rw [hp] at this; cases this
  have hj : ¬(s.cnt = 1 ∧ s.jng = true) := fun e => by
    rw [hv, fDec_enc, if_pos e] at hv1
    exact hv1 rfl
  rw [if_neg hj] at t12
  generalize hs' : ({ s with m := m', kb := s.kb + 1, cnt := s.cnt - 1, st := upd s.st i .fin } : St) = s'
  have n0 : s'.m = m' := by rw [← hs']
  have n1 : s'.st = upd s.st i .fin := by rw [← hs']
  have n2 : s'.jc = s.jc := by rw [← hs']
  have n3 : s'.d = s.d := by rw [← hs']
  have n4 : s'.term = s.term := by rw [← hs']
  have n5 : s'.lst = s.lst := by rw [← hs']
  have n6 : s'.todo = s.todo := by rw [← hs']
  have n7 : s'.cv = s.cv := by rw [← hs']
  have n8 : s'.met = s.met := by rw [← hs']
  have n9 : s'.kb = s.kb + 1 := by rw [← hs']
  have n10 : s'.kh = s.kh := by rw [← hs']
  have n11 : s'.cnt = s.cnt - 1 := by rw [← hs']
  have n12 : s'.jng = s.jng := by rw [← hs']
  have n13 : s'.need = s.need := by rw [← hs']
  have n14 : s'.cls = s.cls := by rw [← hs']
  have n15 : s'.jd = s.jd := by rw [← hs']
  have n16 : s'.pJ = s.pJ := by rw [← hs']
  have n17 : s'.hc = s.hc := by rw [← hs']
  have n18 : s'.jw = s.jw := by rw [← hs']
  have n19 : s'.via = s.via := by rw [← hs']
  have hn := na_sub (c := c) hlt' hp (x := .fin) (by decide) n1
  clear hs'
  have p1 : ∀ y, s'.st y = if y = i then .fin else s.st y := fun y => by rw [n1, upd_apply]
  clear n1
  have p2 : ∀ y, s'.jc y = s.jc y := fun y => by rw [n2]
  clear n2
  have p7 : ∀ y, s'.cv y = s.cv y := fun y => by rw [n7]
  clear n7
  have p8 : ∀ y, s'.met y = s.met y := fun y => by rw [n8]
  clear n8
  have p19 : ∀ y, s'.via y = s.via y := fun y => by rw [n19]
  clear n19
  have hz1 : (ta i) % 2 = 1 ∧ (ta i) / 2 = i := by simp only [ta]; omega
  refine ⟨?_, ?_, ?_, ?_, by rw [n0]; exact hr⟩
  · clear k1 k2 k3 k4 k5 k6 k7 k8 k9 k10 k11 k12 k13 k14 k15 k16 k17 k18 k19 k20 k21 k22 v1 v2 v3 v4 v5 v6 v7 v8 v9 v10 v11 v12 v13 v14 v15
    constructor
    all_goals first | grind
  · clear k1 k2 k3 k4 k5 k6 k7 k8 k9 k10 k11 k12 k13 k14 k15 k16 k17 k18 k19 k20 k21 k22 v1 v2 v3 v4 v5 v6 v7 v8 v9 v10 v11 v12 v13 v14 v15
    constructor
    all_goals first | grind
  · clear k1 k2 k3 k4 k5 k6 k7 k8 k9 k10 k11 k12 k13 k14 k15 k16 k17 k18 k19 k20 k21 k22
    constructor
    all_goals first | grind
  · clear v5 v6 v8 v9 v10 v11 v12 v13 v14 v15
    constructor
    all_goals first | grind [early]

set_option maxHeartbeats 8000000 in
theorem i_deq {c : Cfg} {s : St} (h : Inv c s) {ts v : Nat} {m' : Mem Loc Acc} {o : Ord} {i : Nat} (hoa : o.isAcq = true) (hor : o.isRel = true) (hp : s.st i = .deq) (hm : s.m.rmw conf o (ta i) .head ts (fun _ => 1) ⟨ta i, .head⟩ = some (v, m')) : Inv c { s with m := m', kh := ts + 1, hc := true, lst := [], todo := s.lst, st := upd s.st i .comp } := by
  have hpos := fun i => na_pos h.ctl (i := i)
  obtain ⟨c1, c2, c3, c4, c5, c6, c7, c8, c9, c10⟩ := h.ctl
  obtain ⟨j1, j2, j3, j4, j5, j6, j7, j8, j9, j10, j11, j12, j13, j14, j15, j16⟩ := h.j
  obtain ⟨v1, v2, v3, v4, v5, v6, v7, v8, v9, v10, v11, v12, v13, v14, v15⟩ := h.v
  obtain ⟨k1, k2, k3, k4, k5, k6, k7, k8, k9, k10, k11, k12, k13, k14, k15, k16, k17, k18, k19, k20, k21, k22⟩ := h.k
  have hq : s.m.racy conf (ta i) ⟨ta i, .head⟩ = false := by
    rw [racy_false]; intro x b hx hc
    exfalso
    have e2 : s.d = .gone := by
      cases hb : b.what with
      | destroy => exact k5 x b hx hb
      | _ => simp [conf, hb] at hc
    exact j15 i (by simp [e2]) hp
  obtain ⟨g, t1, t2, t3, t4, t5, t6, t7, t8, t9, t10, g', t11, t12, t13, t14⟩ := rmw_spec hm
  have hts : ts = s.kh := by
    rcases Nat.lt_trichotomy ts s.kh with hl | hl | hl
    · exact absurd t4 (v4 (ts + 1) hl)
    · exact hl
    · rw [v3 _ hl] at t1; cases t1
  subst hts
  have hlog := fun k b => logged_snoc t5 k b
  have hlt := logged_lt s.m
  have hr : m'.race = false := by rw [t6, h.noRace, hq]; rfl
  clear h
  have mono : ∀ u k, (s.m.cur u).know k = true → (m'.cur u).know k = true := fun u k hk => by
    by_cases hu : u = ta i
    · rw [hu, t8]; rw [hu] at hk; rw [hk]; rfl
    · rw [t7 u hu]; exact hk
  have hself : (m'.cur (ta i)).know s.m.log.length = true := by rw [t8]; simp
  have hacq : o.isAcq = true → ∀ k, g.view.know k = true → (m'.cur (ta i)).know k = true := fun ho k hk => by rw [t8, hk, ho]; simp
  have hrel : o.isRel = true → ∀ k, (m'.cur (ta i)).know k = true → g'.view.know k = true := fun ho k hk => by rw [t13, hk, ho]; simp
  have hch : ∀ k, g.view.know k = true → g'.view.know k = true := fun k hk => by rw [t13, hk]; rfl
  have hsn : ∀ u x, (s.m.cur u).seen x ≤ (m'.cur u).seen x := fun u x => by
    by_cases hu : u = ta i
    · subst hu; rw [t9]
      by_cases hx : x = .head
      · rw [if_pos hx]; rw [hx]; omega
      · rw [if_neg hx]; omega
    · rw [t7 u hu]; exact Nat.le_refl _
  have hsl : s.kh + 1 ≤ (m'.cur (ta i)).seen .head := by rw [t9, if_pos rfl]; omega
  have hsa : o.isAcq = true → ∀ x, g.view.seen x ≤ (m'.cur (ta i)).seen x := fun ho x => by rw [t9, if_pos ho]; omega
  have hsr : o.isRel = true → ∀ x, (m'.cur (ta i)).seen x ≤ g'.view.seen x := fun ho x => by rw [t14, if_pos ho]; omega
  have hsc : ∀ x, g.view.seen x ≤ g'.view.seen x := fun x => by rw [t14]; omega
  have hf : ∀ j, j ≠ s.kh + 1 → m'.hist .head j = s.m.hist .head j := fun j hj => t10 _ _ (fun e => hj e.2)
  have hg : ∀ x j, x ≠ .head → m'.hist x j = s.m.hist x j := fun x j hx => t10 _ _ (fun e => hx e.1)
  have hgo := fun j => hg .bits j (by decide)
  clear t5 t6 t7 t8 t9 t10 t13 t14 hm hq hg
  generalize hs' : ({ s with m := m', kh := s.kh + 1, hc := true, lst := [], todo := s.lst, st := upd s.st i .comp } : St) = s'
  have n0 : s'.m = m' := by rw [← hs']
  have n1 : s'.st = upd s.st i .comp := by rw [← hs']
  have n2 : s'.jc = s.jc := by rw [← hs']
  have n3 : s'.d = s.d := by rw [← hs']
  have n4 : s'.term = s.term := by rw [← hs']
  have n5 : s'.lst = [] := by rw [← hs']
  have n6 : s'.todo = s.lst := by rw [← hs']
  have n7 : s'.cv = s.cv := by rw [← hs']
  have n8 : s'.met = s.met := by rw [← hs']
  have n9 : s'.kb = s.kb := by rw [← hs']
  have n10 : s'.kh = s.kh + 1 := by rw [← hs']
  have n11 : s'.cnt = s.cnt := by rw [← hs']
  have n12 : s'.jng = s.jng := by rw [← hs']
  have n13 : s'.need = s.need := by rw [← hs']
  have n14 : s'.cls = s.cls := by rw [← hs']
  have n15 : s'.jd = s.jd := by rw [← hs']
  have n16 : s'.pJ = s.pJ := by rw [← hs']
  have n17 : s'.hc = true := by rw [← hs']
  have n18 : s'.jw = s.jw := by rw [← hs']
  have n19 : s'.via = s.via := by rw [← hs']
  have hn := na_eq' (c := c) n1 (by simp [hp]) (by decide)
  clear hs'
  have p1 : ∀ y, s'.st y = if y = i then .comp else s.st y := fun y => by rw [n1, upd_apply]
  clear n1
  have p2 : ∀ y, s'.jc y = s.jc y := fun y => by rw [n2]
  clear n2
  have p7 : ∀ y, s'.cv y = s.cv y := fun y => by rw [n7]
  clear n7
  have p8 : ∀ y, s'.met y = s.met y := fun y => by rw [n8]
  clear n8
  have p19 : ∀ y, s'.via y = s.via y := fun y => by rw [n19]
  clear n19
  have hz1 : (ta i) % 2 = 1 ∧ (ta i) / 2 = i := by simp only [ta]; omega
  refine ⟨?_, ?_, ?_, ?_, by rw [n0]; exact hr⟩
  · clear k1 k2 k3 k4 k5 k6 k7 k8 k9 k10 k11 k12 k13 k14 k15 k16 k17 k18 k19 k20 k21 k22 v1 v2 v3 v4 v5 v6 v7 v8 v9 v10 v11 v12 v13 v14 v15
    constructor
    all_goals first | grind
  · clear k1 k2 k3 k4 k5 k6 k7 k8 k9 k10 k11 k12 k13 k14 k15 k16 k17 k18 k19 k20 k21 k22 v1 v2 v3 v4 v5 v6 v7 v8 v9 v10 v11 v12 v13 v14 v15
    constructor
    all_goals first | grind
  · clear k1 k2 k3 k4 k5 k6 k7 k8 k9 k10 k11 k12 k13 k14 k15 k16 k17 k18 k19 k20 k21 k22
    constructor
    all_goals first | grind
  · clear v5 v6 v8 v9 v10 v11 v12 v13 v14 v15
    constructor
    all_goals first | grind [early]

set_option maxHeartbeats 8000000 in
theorem i_fin {c : Cfg} {s : St} (h : Inv c s) {i : Nat} (hp : s.st i = .comp) (ht : s.todo = []) : Inv c { s with st := upd s.st i .fin } := by
  have hpos := fun i => na_pos h.ctl (i := i)
  obtain ⟨c1, c2, c3, c4, c5, c6, c7, c8, c9, c10⟩ := h.ctl
  obtain ⟨j1, j2, j3, j4, j5, j6, j7, j8, j9, j10, j11, j12, j13, j14, j15, j16⟩ := h.j
  obtain ⟨v1, v2, v3, v4, v5, v6, v7, v8, v9, v10, v11, v12, v13, v14, v15⟩ := h.v
  obtain ⟨k1, k2, k3, k4, k5, k6, k7, k8, k9, k10, k11, k12, k13, k14, k15, k16, k17, k18, k19, k20, k21, k22⟩ := h.k
  have hr := h.noRace
  clear h
  generalize hs' : ({ s with st := upd s.st i .fin } : St) = s'
  have n0 : s'.m = s.m := by rw [← hs']
  have n1 : s'.st = upd s.st i .fin := by rw [← hs']
  have n2 : s'.jc = s.jc := by rw [← hs']
  have n3 : s'.d = s.d := by rw [← hs']
  have n4 : s'.term = s.term := by rw [← hs']
  have n5 : s'.lst = s.lst := by rw [← hs']
  have n6 : s'.todo = s.todo := by rw [← hs']
  have n7 : s'.cv = s.cv := by rw [← hs']
  have n8 : s'.met = s.met := by rw [← hs']
  have n9 : s'.kb = s.kb := by rw [← hs']
  have n10 : s'.kh = s.kh := by rw [← hs']
  have n11 : s'.cnt = s.cnt := by rw [← hs']
  have n12 : s'.jng = s.jng := by rw [← hs']
  have n13 : s'.need = s.need := by rw [← hs']
  have n14 : s'.cls = s.cls := by rw [← hs']
  have n15 : s'.jd = s.jd := by rw [← hs']
  have n16 : s'.pJ = s.pJ := by rw [← hs']
  have n17 : s'.hc = s.hc := by rw [← hs']
  have n18 : s'.jw = s.jw := by rw [← hs']
  have n19 : s'.via = s.via := by rw [← hs']
  have hn := na_eq' (c := c) n1 (by simp [hp]) (by decide)
  clear hs'
  have p1 : ∀ y, s'.st y = if y = i then .fin else s.st y := fun y => by rw [n1, upd_apply]
  clear n1
  have p2 : ∀ y, s'.jc y = s.jc y := fun y => by rw [n2]
  clear n2
  have p7 : ∀ y, s'.cv y = s.cv y := fun y => by rw [n7]
  clear n7
  have p8 : ∀ y, s'.met y = s.met y := fun y => by rw [n8]
  clear n8
  have p19 : ∀ y, s'.via y = s.via y := fun y => by rw [n19]
  clear n19
  refine ⟨?_, ?_, ?_, ?_, by rw [n0]; exact hr⟩
  · clear k1 k2 k3 k4 k5 k6 k7 k8 k9 k10 k11 k12 k13 k14 k15 k16 k17 k18 k19 k20 k21 k22 v1 v2 v3 v4 v5 v6 v7 v8 v9 v10 v11 v12 v13 v14 v15
    constructor
    all_goals first | grind
  · clear k1 k2 k3 k4 k5 k6 k7 k8 k9 k10 k11 k12 k13 k14 k15 k16 k17 k18 k19 k20 k21 k22 v1 v2 v3 v4 v5 v6 v7 v8 v9 v10 v11 v12 v13 v14 v15
    constructor
    all_goals first | grind
  · clear k1 k2 k3 k4 k5 k6 k7 k8 k9 k10 k11 k12 k13 k14 k15 k16 k17 k18 k19 k20 k21 k22
    constructor
    all_goals first | grind
  · clear v5 v6 v8 v9 v10 v11 v12 v13 v14 v15
    constructor
    all_goals first | grind [early]

set_option maxHeartbeats 8000000 in
theorem i_comp {c : Cfg} {s : St} (h : Inv c s) {i j : Nat} {r : List Nat} (hp : s.st i = .comp) (ht : s.todo = j :: r) : Inv c { s with m := s.m.touch conf (ta i) ⟨ta i, .op j⟩, jc := upd s.jc j .done, cv := upd s.cv j ((s.m.touch conf (ta i) ⟨ta i, .op j⟩).cur (ta i)), todo := r } := by
  have hpos := fun i => na_pos h.ctl (i := i)
  obtain ⟨c1, c2, c3, c4, c5, c6, c7, c8, c9, c10⟩ := h.ctl
  obtain ⟨j1, j2, j3, j4, j5, j6, j7, j8, j9, j10, j11, j12, j13, j14, j15, j16⟩ := h.j
  obtain ⟨v1, v2, v3, v4, v5, v6, v7, v8, v9, v10, v11, v12, v13, v14, v15⟩ := h.v
  obtain ⟨k1, k2, k3, k4, k5, k6, k7, k8, k9, k10, k11, k12, k13, k14, k15, k16, k17, k18, k19, k20, k21, k22⟩ := h.k
  have hw : s.hc = true ∧ s.jc j = .wait := (j2 j).mp (by rw [ht]; simp)
  have hnr : j ∉ r := by rw [ht] at j4; exact (List.nodup_cons.mp j4).1
  have hr2 : r.Nodup := by rw [ht] at j4; exact (List.nodup_cons.mp j4).2
  have hr3 : ∀ x, x ∈ r ↔ x ≠ j ∧ s.hc = true ∧ s.jc x = .wait := fun x => by
    have := j2 x
    rw [ht, List.mem_cons] at this
    constructor
    · intro e; exact ⟨fun e2 => hnr (e2 ▸ e), this.mp (Or.inr e)⟩
    · intro e; rcases this.mpr e.2 with e2 | e2
      · exact absurd e2 e.1
      · exact e2
  have hq : s.m.racy conf (ta i) ⟨ta i, .op j⟩ = false := by
    rw [racy_false]; intro x b hx hc
    cases hb : b.what with
    | destroy =>
      exfalso
      have e2 := k5 x b hx hb
      have e3 := j14 j (by simp [e2]) (by simp [hw.2])
      have e4 := j12 j e3
      simp [hw.2] at e4
    | op l =>
      have e : l = j := by simpa [conf, hb] using hc
      rw [e] at hb
      rcases k4 x b j hx hb with e | e
      · exact k16 x b i j hw.2 hp hx e
      · simp [hw.2] at e
    | _ => simp [conf, hb] at hc
  obtain ⟨t1, t2, t3, t4, t5, t6⟩ := touch_spec conf s.m (ta i) ⟨ta i, .op j⟩
  have hlog := fun k b => logged_snoc t2 k b
  have hlt := logged_lt s.m
  have hr : (s.m.touch conf (ta i) ⟨ta i, .op j⟩).race = false := by rw [t3, h.noRace, hq]; rfl
  clear h
  try simp only [use]
  generalize s.m.touch conf (ta i) ⟨ta i, .op j⟩ = m' at *
  have hh : ∀ l j, m'.hist l j = s.m.hist l j := fun l j => by rw [t1]
  have mono : ∀ u k, (s.m.cur u).know k = true → (m'.cur u).know k = true := fun u k hk => by
    by_cases hu : u = ta i
    · rw [hu, t5]; rw [hu] at hk; rw [hk]; rfl
    · rw [t4 u hu]; exact hk
  have hself : (m'.cur (ta i)).know s.m.log.length = true := by rw [t5]; simp
  have hsn : ∀ u x, (m'.cur u).seen x = (s.m.cur u).seen x := fun u x => by
    by_cases hu : u = ta i
    · rw [hu, t6]
    · rw [t4 u hu]
  clear t1 t2 t3 t4 t5 t6 hq
  generalize hs' : ({ s with m := m', jc := upd s.jc j .done, cv := upd s.cv j ((m').cur (ta i)), todo := r } : St) = s'
  have n0 : s'.m = m' := by rw [← hs']
  have n1 : s'.st = s.st := by rw [← hs']
  have n2 : s'.jc = upd s.jc j .done := by rw [← hs']
  have n3 : s'.d = s.d := by rw [← hs']
  have n4 : s'.term = s.term := by rw [← hs']
  have n5 : s'.lst = s.lst := by rw [← hs']
  have n6 : s'.todo = r := by rw [← hs']
  have n7 : s'.cv = upd s.cv j ((m').cur (ta i)) := by rw [← hs']
  have n8 : s'.met = s.met := by rw [← hs']
  have n9 : s'.kb = s.kb := by rw [← hs']
  have n10 : s'.kh = s.kh := by rw [← hs']
  have n11 : s'.cnt = s.cnt := by rw [← hs']
  have n12 : s'.jng = s.jng := by rw [← hs']
  have n13 : s'.need = s.need := by rw [← hs']
  have n14 : s'.cls = s.cls := by rw [← hs']
  have n15 : s'.jd = s.jd := by rw [← hs']
  have n16 : s'.pJ = s.pJ := by rw [← hs']
  have n17 : s'.hc = s.hc := by rw [← hs']
  have n18 : s'.jw = s.jw := by rw [← hs']
  have n19 : s'.via = s.via := by rw [← hs']
  have hn := na_eq (c := c) n1
  clear hs'
  have p1 : ∀ y, s'.st y = s.st y := fun y => by rw [n1]
  clear n1
  have p2 : ∀ y, s'.jc y = if y = j then .done else s.jc y := fun y => by rw [n2, upd_apply]
  clear n2
  have p7 : ∀ y, s'.cv y = if y = j then ((m').cur (ta i)) else s.cv y := fun y => by rw [n7, upd_apply]
  clear n7
  have p8 : ∀ y, s'.met y = s.met y := fun y => by rw [n8]
  clear n8
  have p19 : ∀ y, s'.via y = s.via y := fun y => by rw [n19]
  clear n19
  have hz1 : (ta i) % 2 = 1 ∧ (ta i) / 2 = i := by simp only [ta]; omega
  refine ⟨?_, ?_, ?_, ?_, by rw [n0]; exact hr⟩
  · clear k1 k2 k3 k4 k5 k6 k7 k8 k9 k10 k11 k12 k13 k14 k15 k16 k17 k18 k19 k20 k21 k22 v1 v2 v3 v4 v5 v6 v7 v8 v9 v10 v11 v12 v13 v14 v15
    constructor
    all_goals first | grind
  · clear k1 k2 k3 k4 k5 k6 k7 k8 k9 k10 k11 k12 k13 k14 k15 k16 k17 k18 k19 k20 k21 k22 v1 v2 v3 v4 v5 v6 v7 v8 v9 v10 v11 v12 v13 v14 v15
    constructor
    all_goals first | grind
  · clear k1 k2 k3 k4 k5 k6 k7 k8 k9 k10 k11 k12 k13 k14 k15 k16 k17 k18 k19 k20 k21 k22
    constructor
    all_goals first | grind
  · clear v5 v6 v8 v9 v10 v11 v12 v13 v14 v15
    constructor
    all_goals first | grind [early]

set_option maxHeartbeats 8000000 in
theorem i_make {c : Cfg} {s : St} (h : Inv c s) {j : Nat} (hj : j < c.k) (hp : s.jc j = .idle) (hd : s.d = .live) : Inv c { s with m := s.m.touch conf (tj j) ⟨tj j, .op j⟩, jc := upd s.jc j .made } := by
  have hpos := fun i => na_pos h.ctl (i := i)
  obtain ⟨c1, c2, c3, c4, c5, c6, c7, c8, c9, c10⟩ := h.ctl
  obtain ⟨j1, j2, j3, j4, j5, j6, j7, j8, j9, j10, j11, j12, j13, j14, j15, j16⟩ := h.j
  obtain ⟨v1, v2, v3, v4, v5, v6, v7, v8, v9, v10, v11, v12, v13, v14, v15⟩ := h.v
  obtain ⟨k1, k2, k3, k4, k5, k6, k7, k8, k9, k10, k11, k12, k13, k14, k15, k16, k17, k18, k19, k20, k21, k22⟩ := h.k
  have hq : s.m.racy conf (tj j) ⟨tj j, .op j⟩ = false := by
    rw [racy_false]; intro x b hx hc
    cases hb : b.what with
    | destroy =>
      exfalso
      have e2 := k5 x b hx hb
      simp [hd] at e2
    | op l =>
      have e : l = j := by simpa [conf, hb] using hc
      rw [e] at hb
      rcases k4 x b j hx hb with e | e
      · have := k1 x b hx; rw [e] at this; exact this
      · simp [hp] at e
    | _ => simp [conf, hb] at hc
  obtain ⟨t1, t2, t3, t4, t5, t6⟩ := touch_spec conf s.m (tj j) ⟨tj j, .op j⟩
  have hlog := fun k b => logged_snoc t2 k b
  have hlt := logged_lt s.m
  have hr : (s.m.touch conf (tj j) ⟨tj j, .op j⟩).race = false := by rw [t3, h.noRace, hq]; rfl
  clear h
  try simp only [use]
  generalize s.m.touch conf (tj j) ⟨tj j, .op j⟩ = m' at *
  have hh : ∀ l j, m'.hist l j = s.m.hist l j := fun l j => by rw [t1]
  have mono : ∀ u k, (s.m.cur u).know k = true → (m'.cur u).know k = true := fun u k hk => by
    by_cases hu : u = tj j
    · rw [hu, t5]; rw [hu] at hk; rw [hk]; rfl
    · rw [t4 u hu]; exact hk
  have hself : (m'.cur (tj j)).know s.m.log.length = true := by rw [t5]; simp
  have hsn : ∀ u x, (m'.cur u).seen x = (s.m.cur u).seen x := fun u x => by
    by_cases hu : u = tj j
    · rw [hu, t6]
    · rw [t4 u hu]
  clear t1 t2 t3 t4 t5 t6 hq
  generalize hs' : ({ s with m := m', jc := upd s.jc j .made } : St) = s'
  have n0 : s'.m = m' := by rw [← hs']
  have n1 : s'.st = s.st := by rw [← hs']
  have n2 : s'.jc = upd s.jc j .made := by rw [← hs']
  have n3 : s'.d = s.d := by rw [← hs']
  have n4 : s'.term = s.term := by rw [← hs']
  have n5 : s'.lst = s.lst := by rw [← hs']
  have n6 : s'.todo = s.todo := by rw [← hs']
  have n7 : s'.cv = s.cv := by rw [← hs']
  have n8 : s'.met = s.met := by rw [← hs']
  have n9 : s'.kb = s.kb := by rw [← hs']
  have n10 : s'.kh = s.kh := by rw [← hs']
  have n11 : s'.cnt = s.cnt := by rw [← hs']
  have n12 : s'.jng = s.jng := by rw [← hs']
  have n13 : s'.need = s.need := by rw [← hs']
  have n14 : s'.cls = s.cls := by rw [← hs']
  have n15 : s'.jd = s.jd := by rw [← hs']
  have n16 : s'.pJ = s.pJ := by rw [← hs']
  have n17 : s'.hc = s.hc := by rw [← hs']
  have n18 : s'.jw = s.jw := by rw [← hs']
  have n19 : s'.via = s.via := by rw [← hs']
  have hn := na_eq (c := c) n1
  clear hs'
  have p1 : ∀ y, s'.st y = s.st y := fun y => by rw [n1]
  clear n1
  have p2 : ∀ y, s'.jc y = if y = j then .made else s.jc y := fun y => by rw [n2, upd_apply]
  clear n2
  have p7 : ∀ y, s'.cv y = s.cv y := fun y => by rw [n7]
  clear n7
  have p8 : ∀ y, s'.met y = s.met y := fun y => by rw [n8]
  clear n8
  have p19 : ∀ y, s'.via y = s.via y := fun y => by rw [n19]
  clear n19
  have hz2 : (tj j) % 2 = 0 ∧ tj j ≠ 0 := by simp only [tj]; omega
  refine ⟨?_, ?_, ?_, ?_, by rw [n0]; exact hr⟩
  · clear k1 k2 k3 k4 k5 k6 k7 k8 k9 k10 k11 k12 k13 k14 k15 k16 k17 k18 k19 k20 k21 k22 v1 v2 v3 v4 v5 v6 v7 v8 v9 v10 v11 v12 v13 v14 v15
    constructor
    all_goals first | grind
  · clear k1 k2 k3 k4 k5 k6 k7 k8 k9 k10 k11 k12 k13 k14 k15 k16 k17 k18 k19 k20 k21 k22 v1 v2 v3 v4 v5 v6 v7 v8 v9 v10 v11 v12 v13 v14 v15
    constructor
    all_goals first | grind
  · clear k1 k2 k3 k4 k5 k6 k7 k8 k9 k10 k11 k12 k13 k14 k15 k16 k17 k18 k19 k20 k21 k22
    constructor
    all_goals first | grind
  · clear v5 v6 v8 v9 v10 v11 v12 v13 v14 v15
    constructor
    all_goals first | grind [early]

end Verif.WmScope
