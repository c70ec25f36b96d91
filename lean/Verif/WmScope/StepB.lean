import Verif.WmScope.Inv
/-!
# Counting scopes under the C++ memory model — steps (C99)
-/
namespace Verif.WmScope

open Verif.WM

set_option maxHeartbeats 8000000 in
theorem i_join0 {c : Cfg} {s : St} (h : Inv c s) {ts v : Nat} {m' : Mem Loc Acc} {o : Ord} {j : Nat} (hoa : o.isAcq = true) (hp : s.jc j = .made) (hv0 : v / 8 = 0) (hm : s.m.rmw conf o (tj j) .bits ts (fun _ => 1) ⟨tj j, .bits⟩ = some (v, m')) : Inv c { s with m := m', kb := ts + 1, cnt := 0, jng := false, need := false, cls := true, jd := true, pJ := if s.jd then s.pJ else ts + 1, jc := upd s.jc j .inl } := by
  have hpos := fun i => na_pos h.ctl (i := i)
  obtain ⟨c1, c2, c3, c4, c5, c6, c7, c8, c9, c10⟩ := h.ctl
  obtain ⟨j1, j2, j3, j4, j5, j6, j7, j8, j9, j10, j11, j12, j13, j14, j15, j16⟩ := h.j
  obtain ⟨v1, v2, v3, v4, v5, v6, v7, v8, v9, v10, v11, v12, v13, v14, v15⟩ := h.v
  obtain ⟨k1, k2, k3, k4, k5, k6, k7, k8, k9, k10, k11, k12, k13, k14, k15, k16, k17, k18, k19, k20, k21, k22⟩ := h.k
  have hq : s.m.racy conf (tj j) ⟨tj j, .bits⟩ = false := by
    rw [racy_false]; intro x b hx hc
    exfalso
    have e2 : s.d = .gone := by
      cases hb : b.what with
      | destroy => exact k5 x b hx hb
      | _ => simp [conf, hb] at hc
    have e3 := j14 j (by simp [e2]) (by simp [hp])
    have e4 := j12 j e3
    simp [hp] at e4
  obtain ⟨g, t1, t2, t3, t4, t5, t6, t7, t8, t9, t10, g', t11, t12, t13, t14⟩ := rmw_spec hm
  have hts : ts = s.kb := by
    rcases Nat.lt_trichotomy ts s.kb with hl | hl | hl
    · exact absurd t4 (v2 (ts + 1) hl)
    · exact hl
    · rw [v1 _ hl] at t1; cases t1
  subst hts
  have hlog := fun k b => logged_snoc t5 k b
  have hlt := logged_lt s.m
  have hr : m'.race = false := by rw [t6, h.noRace, hq]; rfl
  clear h
  have mono : ∀ u k, (s.m.cur u).know k = true → (m'.cur u).know k = true := fun u k hk => by
    by_cases hu : u = tj j
    · rw [hu, t8]; rw [hu] at hk; rw [hk]; rfl
    · rw [t7 u hu]; exact hk
  have hself : (m'.cur (tj j)).know s.m.log.length = true := by rw [t8]; simp
  have hacq : o.isAcq = true → ∀ k, g.view.know k = true → (m'.cur (tj j)).know k = true := fun ho k hk => by rw [t8, hk, ho]; simp
  have hrel : o.isRel = true → ∀ k, (m'.cur (tj j)).know k = true → g'.view.know k = true := fun ho k hk => by rw [t13, hk, ho]; simp
  have hch : ∀ k, g.view.know k = true → g'.view.know k = true := fun k hk => by rw [t13, hk]; rfl
  have hsn : ∀ u x, (s.m.cur u).seen x ≤ (m'.cur u).seen x := fun u x => by
    by_cases hu : u = tj j
    · subst hu; rw [t9]
      by_cases hx : x = .bits
      · rw [if_pos hx]; rw [hx]; omega
      · rw [if_neg hx]; omega
    · rw [t7 u hu]; exact Nat.le_refl _
  have hsl : s.kb + 1 ≤ (m'.cur (tj j)).seen .bits := by rw [t9, if_pos rfl]; omega
  have hsa : o.isAcq = true → ∀ x, g.view.seen x ≤ (m'.cur (tj j)).seen x := fun ho x => by rw [t9, if_pos ho]; omega
  have hsr : o.isRel = true → ∀ x, (m'.cur (tj j)).seen x ≤ g'.view.seen x := fun ho x => by rw [t14, if_pos ho]; omega
  have hsc : ∀ x, g.view.seen x ≤ g'.view.seen x := fun x => by rw [t14]; omega
  have hf : ∀ j, j ≠ s.kb + 1 → m'.hist .bits j = s.m.hist .bits j := fun j hj => t10 _ _ (fun e => hj e.2)
  have hg : ∀ x j, x ≠ .bits → m'.hist x j = s.m.hist x j := fun x j hx => t10 _ _ (fun e => hx e.1)
  have hgo := fun j => hg .head j (by decide)
  clear t5 t6 t7 t8 t9 t10 t13 t14 hm hq hg
  have hv : v = enc s.cnt s.jng s.need s.cls := by rw [t2]; exact v5 g t1
  have hc0 : s.cnt = 0 := by rw [hv, enc_div] at hv0; exact hv0
  have hjn : s.jng = false := by cases hx : s.jng
                                 · rfl
                                 · have := c3 hx; omega
  have hej := enc_joined
  generalize hs' : ({ s with m := m', kb := s.kb + 1, cnt := 0, jng := false, need := false, cls := true, jd := true, pJ := if s.jd then s.pJ else s.kb + 1, jc := upd s.jc j .inl } : St) = s'
  have n0 : s'.m = m' := by rw [← hs']
  have n1 : s'.st = s.st := by rw [← hs']
  have n2 : s'.jc = upd s.jc j .inl := by rw [← hs']
  have n3 : s'.d = s.d := by rw [← hs']
  have n4 : s'.term = s.term := by rw [← hs']
  have n5 : s'.lst = s.lst := by rw [← hs']
  have n6 : s'.todo = s.todo := by rw [← hs']
  have n7 : s'.cv = s.cv := by rw [← hs']
  have n8 : s'.met = s.met := by rw [← hs']
  have n9 : s'.kb = s.kb + 1 := by rw [← hs']
  have n10 : s'.kh = s.kh := by rw [← hs']
  have n11 : s'.cnt = 0 := by rw [← hs']
  have n12 : s'.jng = false := by rw [← hs']
  have n13 : s'.need = false := by rw [← hs']
  have n14 : s'.cls = true := by rw [← hs']
  have n15 : s'.jd = true := by rw [← hs']
  have n16 : s'.pJ = if s.jd then s.pJ else s.kb + 1 := by rw [← hs']
  have n17 : s'.hc = s.hc := by rw [← hs']
  have n18 : s'.jw = s.jw := by rw [← hs']
  have n19 : s'.via = s.via := by rw [← hs']
  have hn := na_eq (c := c) n1
  clear hs'
  have p1 : ∀ y, s'.st y = s.st y := fun y => by rw [n1]
  clear n1
  have p2 : ∀ y, s'.jc y = if y = j then .inl else s.jc y := fun y => by rw [n2, upd_apply]
  clear n2
  have p7 : ∀ y, s'.cv y = s.cv y := fun y => by rw [n7]
  clear n7
  have p8 : ∀ y, s'.met y = s.met y := fun y => by rw [n8]
  clear n8
  have p19 : ∀ y, s'.via y = s.via y := fun y => by rw [n19]
  clear n19
  have hz2 : (tj j) % 2 = 0 ∧ tj j ≠ 0 := by simp only [tj]; omega
  refine ⟨?_, ?_, ?_, ?_, by rw [n0]; exact hr⟩
  · clear k1 k2 k3 k4 k5 k6 k7 k8 k9 k10 k11 k12 k13 k14 k15 k16 k17 k18 k19 k20 k21 k22 v1 v2 v3 v4 v5 v6 v7 v8 v9 v10 v11 v12 v13 v14 v15
    constructor
    all_goals first | grind | skip
  · clear k1 k2 k3 k4 k5 k6 k7 k8 k9 k10 k11 k12 k13 k14 k15 k16 k17 k18 k19 k20 k21 k22 v1 v2 v3 v4 v5 v6 v7 v8 v9 v10 v11 v12 v13 v14 v15
    constructor
    all_goals first | grind | skip
  · clear k1 k2 k3 k4 k5 k6 k7 k8 k9 k10 k11 k12 k13 k14 k15 k16 k17 k18 k19 k20 k21 k22
    constructor
    all_goals first | grind | skip
  · clear v5 v6 v8 v9 v10 v11 v12 v13 v14 v15
    constructor
    all_goals first | grind [early] | skip

set_option maxHeartbeats 8000000 in
theorem i_join1 {c : Cfg} {s : St} (h : Inv c s) {ts v : Nat} {m' : Mem Loc Acc} {o : Ord} {j : Nat} (hp : s.jc j = .made) (hv0 : v / 8 ≠ 0) (hm : s.m.rmw conf o (tj j) .bits ts fJng ⟨tj j, .bits⟩ = some (v, m')) : Inv c { s with m := m', kb := ts + 1, jng := true, jw := j, via := upd s.via j true, jc := upd s.jc j .reg } := by
  have hpos := fun i => na_pos h.ctl (i := i)
  obtain ⟨c1, c2, c3, c4, c5, c6, c7, c8, c9, c10⟩ := h.ctl
  obtain ⟨j1, j2, j3, j4, j5, j6, j7, j8, j9, j10, j11, j12, j13, j14, j15, j16⟩ := h.j
  obtain ⟨v1, v2, v3, v4, v5, v6, v7, v8, v9, v10, v11, v12, v13, v14, v15⟩ := h.v
  obtain ⟨k1, k2, k3, k4, k5, k6, k7, k8, k9, k10, k11, k12, k13, k14, k15, k16, k17, k18, k19, k20, k21, k22⟩ := h.k
  have hq : s.m.racy conf (tj j) ⟨tj j, .bits⟩ = false := by
    rw [racy_false]; intro x b hx hc
    exfalso
    have e2 : s.d = .gone := by
      cases hb : b.what with
      | destroy => exact k5 x b hx hb
      | _ => simp [conf, hb] at hc
    have e3 := j14 j (by simp [e2]) (by simp [hp])
    have e4 := j12 j e3
    simp [hp] at e4
  obtain ⟨g, t1, t2, t3, t4, t5, t6, t7, t8, t9, t10, g', t11, t12, t13, t14⟩ := rmw_spec hm
  have hts : ts = s.kb := by
    rcases Nat.lt_trichotomy ts s.kb with hl | hl | hl
    · exact absurd t4 (v2 (ts + 1) hl)
    · exact hl
    · rw [v1 _ hl] at t1; cases t1
  subst hts
  have hlog := fun k b => logged_snoc t5 k b
  have hlt := logged_lt s.m
  have hr : m'.race = false := by rw [t6, h.noRace, hq]; rfl
  clear h
  have mono : ∀ u k, (s.m.cur u).know k = true → (m'.cur u).know k = true := fun u k hk => by
    by_cases hu : u = tj j
    · rw [hu, t8]; rw [hu] at hk; rw [hk]; rfl
    · rw [t7 u hu]; exact hk
  have hself : (m'.cur (tj j)).know s.m.log.length = true := by rw [t8]; simp
  have hacq : o.isAcq = true → ∀ k, g.view.know k = true → (m'.cur (tj j)).know k = true := fun ho k hk => by rw [t8, hk, ho]; simp
  have hrel : o.isRel = true → ∀ k, (m'.cur (tj j)).know k = true → g'.view.know k = true := fun ho k hk => by rw [t13, hk, ho]; simp
  have hch : ∀ k, g.view.know k = true → g'.view.know k = true := fun k hk => by rw [t13, hk]; rfl
  have hsn : ∀ u x, (s.m.cur u).seen x ≤ (m'.cur u).seen x := fun u x => by
    by_cases hu : u = tj j
    · subst hu; rw [t9]
      by_cases hx : x = .bits
      · rw [if_pos hx]; rw [hx]; omega
      · rw [if_neg hx]; omega
    · rw [t7 u hu]; exact Nat.le_refl _
  have hsl : s.kb + 1 ≤ (m'.cur (tj j)).seen .bits := by rw [t9, if_pos rfl]; omega
  have hsa : o.isAcq = true → ∀ x, g.view.seen x ≤ (m'.cur (tj j)).seen x := fun ho x => by rw [t9, if_pos ho]; omega
  have hsr : o.isRel = true → ∀ x, (m'.cur (tj j)).seen x ≤ g'.view.seen x := fun ho x => by rw [t14, if_pos ho]; omega
  have hsc : ∀ x, g.view.seen x ≤ g'.view.seen x := fun x => by rw [t14]; omega
  have hf : ∀ j, j ≠ s.kb + 1 → m'.hist .bits j = s.m.hist .bits j := fun j hj => t10 _ _ (fun e => hj e.2)
  have hg : ∀ x j, x ≠ .bits → m'.hist x j = s.m.hist x j := fun x j hx => t10 _ _ (fun e => hx e.1)
  have hgo := fun j => hg .head j (by decide)
  clear t5 t6 t7 t8 t9 t10 t13 t14 hm hq hg
  have hv : v = enc s.cnt s.jng s.need s.cls := by rw [t2]; exact v5 g t1
  rw [← t2, hv, fJng_enc] at t12
  have hc0 : s.cnt ≠ 0 := by rw [hv, enc_div] at hv0; exact hv0
  generalize hs' : ({ s with m := m', kb := s.kb + 1, jng := true, jw := j, via := upd s.via j true, jc := upd s.jc j .reg } : St) = s'
  have n0 : s'.m = m' := by rw [← hs']
  have n1 : s'.st = s.st := by rw [← hs']
  have n2 : s'.jc = upd s.jc j .reg := by rw [← hs']
  have n3 : s'.d = s.d := by rw [← hs']
  have n4 : s'.term = s.term := by rw [← hs']
  have n5 : s'.lst = s.lst := by rw [← hs']
  have n6 : s'.todo = s.todo := by rw [← hs']
  have n7 : s'.cv = s.cv := by rw [← hs']
  have n8 : s'.met = s.met := by rw [← hs']
  have n9 : s'.kb = s.kb + 1 := by rw [← hs']
  have n10 : s'.kh = s.kh := by rw [← hs']
  have n11 : s'.cnt = s.cnt := by rw [← hs']
  have n12 : s'.jng = true := by rw [← hs']
  have n13 : s'.need = s.need := by rw [← hs']
  have n14 : s'.cls = s.cls := by rw [← hs']
  have n15 : s'.jd = s.jd := by rw [← hs']
  have n16 : s'.pJ = s.pJ := by rw [← hs']
  have n17 : s'.hc = s.hc := by rw [← hs']
  have n18 : s'.jw = j := by rw [← hs']
  have n19 : s'.via = upd s.via j true := by rw [← hs']
  have hn := na_eq (c := c) n1
  clear hs'
  have p1 : ∀ y, s'.st y = s.st y := fun y => by rw [n1]
  clear n1
  have p2 : ∀ y, s'.jc y = if y = j then .reg else s.jc y := fun y => by rw [n2, upd_apply]
  clear n2
  have p7 : ∀ y, s'.cv y = s.cv y := fun y => by rw [n7]
  clear n7
  have p8 : ∀ y, s'.met y = s.met y := fun y => by rw [n8]
  clear n8
  have p19 : ∀ y, s'.via y = if y = j then true else s.via y := fun y => by rw [n19, upd_apply]
  clear n19
  have hz2 : (tj j) % 2 = 0 ∧ tj j ≠ 0 := by simp only [tj]; omega
  refine ⟨?_, ?_, ?_, ?_, by rw [n0]; exact hr⟩
  · clear k1 k2 k3 k4 k5 k6 k7 k8 k9 k10 k11 k12 k13 k14 k15 k16 k17 k18 k19 k20 k21 k22 v1 v2 v3 v4 v5 v6 v7 v8 v9 v10 v11 v12 v13 v14 v15
    constructor
    all_goals first | grind | skip
  · clear k1 k2 k3 k4 k5 k6 k7 k8 k9 k10 k11 k12 k13 k14 k15 k16 k17 k18 k19 k20 k21 k22 v1 v2 v3 v4 v5 v6 v7 v8 v9 v10 v11 v12 v13 v14 v15
    constructor
    all_goals first | grind | skip
  · clear k1 k2 k3 k4 k5 k6 k7 k8 k9 k10 k11 k12 k13 k14 k15 k16 k17 k18 k19 k20 k21 k22
    constructor
    all_goals first | grind | skip
  · clear v5 v6 v8 v9 v10 v11 v12 v13 v14 v15
    constructor
    all_goals first | grind [early] | skip

set_option maxHeartbeats 8000000 in
theorem i_link {c : Cfg} {s : St} (h : Inv c s) {j : Nat} (hp : s.jc j = .reg) : Inv c { s with m := s.m.touch conf (tj j) ⟨tj j, .op j⟩ } := by
  have hpos := fun i => na_pos h.ctl (i := i)
  obtain ⟨c1, c2, c3, c4, c5, c6, c7, c8, c9, c10⟩ := h.ctl
  obtain ⟨j1, j2, j3, j4, j5, j6, j7, j8, j9, j10, j11, j12, j13, j14, j15, j16⟩ := h.j
  obtain ⟨v1, v2, v3, v4, v5, v6, v7, v8, v9, v10, v11, v12, v13, v14, v15⟩ := h.v
  obtain ⟨k1, k2, k3, k4, k5, k6, k7, k8, k9, k10, k11, k12, k13, k14, k15, k16, k17, k18, k19, k20, k21, k22⟩ := h.k
  have hq : s.m.racy conf (tj j) ⟨tj j, .op j⟩ = false := by
    rw [racy_false]; intro x b hx hc
    cases hb : b.what with
    | destroy =>
      exfalso
      have e2 := k5 x b hx hb
      have e3 := j14 j (by simp [e2]) (by simp [hp])
      have e4 := j12 j e3
      simp [hp] at e4
    | op l =>
      have e : l = j := by simpa [conf, hb] using hc
      rw [e] at hb
      rcases k4 x b j hx hb with e | e
      · have := k1 x b hx; rw [e] at this; exact this
      · simp [hp] at e
    | _ => simp [conf, hb] at hc
  obtain ⟨t1, t2, t3, t4, t5, t6⟩ := touch_spec conf s.m (tj j) ⟨tj j, .op j⟩
  have hlog := fun k b => logged_snoc t2 k b
  have hlt := logged_lt s.m
  have hr : (s.m.touch conf (tj j) ⟨tj j, .op j⟩).race = false := by rw [t3, h.noRace, hq]; rfl
  clear h
  try simp only [use]
  generalize s.m.touch conf (tj j) ⟨tj j, .op j⟩ = m' at *
  have hh : ∀ l j, m'.hist l j = s.m.hist l j := fun l j => by rw [t1]
  have mono : ∀ u k, (s.m.cur u).know k = true → (m'.cur u).know k = true := fun u k hk => by
    by_cases hu : u = tj j
    · rw [hu, t5]; rw [hu] at hk; rw [hk]; rfl
    · rw [t4 u hu]; exact hk
  have hself : (m'.cur (tj j)).know s.m.log.length = true := by rw [t5]; simp
  have hsn : ∀ u x, (m'.cur u).seen x = (s.m.cur u).seen x := fun u x => by
    by_cases hu : u = tj j
    · rw [hu, t6]
    · rw [t4 u hu]
  clear t1 t2 t3 t4 t5 t6 hq
  generalize hs' : ({ s with m := m' } : St) = s'
  have n0 : s'.m = m' := by rw [← hs']
  have n1 : s'.st = s.st := by rw [← hs']
  have n2 : s'.jc = s.jc := by rw [← hs']
  have n3 : s'.d = s.d := by rw [← hs']
  have n4 : s'.term = s.term := by rw [← hs']
  have n5 : s'.lst = s.lst := by rw [← hs']
  have n6 : s'.todo = s.todo := by rw [← hs']
  have n7 : s'.cv = s.cv := by rw [← hs']
  have n8 : s'.met = s.met := by rw [← hs']
  have n9 : s'.kb = s.kb := by rw [← hs']
  have n10 : s'.kh = s.kh := by rw [← hs']
  have n11 : s'.cnt = s.cnt := by rw [← hs']
  have n12 : s'.jng = s.jng := by rw [← hs']
  have n13 : s'.need = s.need := by rw [← hs']
  have n14 : s'.cls = s.cls := by rw [← hs']
  have n15 : s'.jd = s.jd := by rw [← hs']
  have n16 : s'.pJ = s.pJ := by rw [← hs']
  have n17 : s'.hc = s.hc := by rw [← hs']
  have n18 : s'.jw = s.jw := by rw [← hs']
  have n19 : s'.via = s.via := by rw [← hs']
  have hn := na_eq (c := c) n1
  clear hs'
  have p1 : ∀ y, s'.st y = s.st y := fun y => by rw [n1]
  clear n1
  have p2 : ∀ y, s'.jc y = s.jc y := fun y => by rw [n2]
  clear n2
  have p7 : ∀ y, s'.cv y = s.cv y := fun y => by rw [n7]
  clear n7
  have p8 : ∀ y, s'.met y = s.met y := fun y => by rw [n8]
  clear n8
  have p19 : ∀ y, s'.via y = s.via y := fun y => by rw [n19]
  clear n19
  have hz2 : (tj j) % 2 = 0 ∧ tj j ≠ 0 := by simp only [tj]; omega
  refine ⟨?_, ?_, ?_, ?_, by rw [n0]; exact hr⟩
  · clear k1 k2 k3 k4 k5 k6 k7 k8 k9 k10 k11 k12 k13 k14 k15 k16 k17 k18 k19 k20 k21 k22 v1 v2 v3 v4 v5 v6 v7 v8 v9 v10 v11 v12 v13 v14 v15
    constructor
    all_goals first | grind | skip
  · clear k1 k2 k3 k4 k5 k6 k7 k8 k9 k10 k11 k12 k13 k14 k15 k16 k17 k18 k19 k20 k21 k22 v1 v2 v3 v4 v5 v6 v7 v8 v9 v10 v11 v12 v13 v14 v15
    constructor
    all_goals first | grind | skip
  · clear k1 k2 k3 k4 k5 k6 k7 k8 k9 k10 k11 k12 k13 k14 k15 k16 k17 k18 k19 k20 k21 k22
    constructor
    all_goals first | grind | skip
  · clear v5 v6 v8 v9 v10 v11 v12 v13 v14 v15
    constructor
    all_goals first | grind [early] | skip

set_option maxHeartbeats 8000000 in
theorem i_closed {c : Cfg} {s : St} (h : Inv c s) {ts v : Nat} {m' : Mem Loc Acc} {o : Ord} {j : Nat} (hoa : o.isAcq = true) (hp : s.jc j = .reg) (hv0 : v = 1) (hm : s.m.load conf o (tj j) .head ts ⟨tj j, .head⟩ = some (v, m')) : Inv c { s with m := m', jc := upd s.jc j .inl } := by
  have hpos := fun i => na_pos h.ctl (i := i)
  obtain ⟨c1, c2, c3, c4, c5, c6, c7, c8, c9, c10⟩ := h.ctl
  obtain ⟨j1, j2, j3, j4, j5, j6, j7, j8, j9, j10, j11, j12, j13, j14, j15, j16⟩ := h.j
  obtain ⟨v1, v2, v3, v4, v5, v6, v7, v8, v9, v10, v11, v12, v13, v14, v15⟩ := h.v
  obtain ⟨k1, k2, k3, k4, k5, k6, k7, k8, k9, k10, k11, k12, k13, k14, k15, k16, k17, k18, k19, k20, k21, k22⟩ := h.k
  have hq : s.m.racy conf (tj j) ⟨tj j, .head⟩ = false := by
    rw [racy_false]; intro x b hx hc
    exfalso
    have e2 : s.d = .gone := by
      cases hb : b.what with
      | destroy => exact k5 x b hx hb
      | _ => simp [conf, hb] at hc
    have e3 := j14 j (by simp [e2]) (by simp [hp])
    have e4 := j12 j e3
    simp [hp] at e4
  obtain ⟨g, t1, t2, t3, t4, t5, t6, t7, t8, t9⟩ := load_spec hm
  have hlog := fun k b => logged_snoc t5 k b
  have hlt := logged_lt s.m
  have hr : m'.race = false := by rw [t6, h.noRace, hq]; rfl
  clear h
  have hh : ∀ l j, m'.hist l j = s.m.hist l j := fun l j => by rw [t4]
  have mono : ∀ u k, (s.m.cur u).know k = true → (m'.cur u).know k = true := fun u k hk => by
    by_cases hu : u = tj j
    · rw [hu, t8]; rw [hu] at hk; rw [hk]; rfl
    · rw [t7 u hu]; exact hk
  have hself : (m'.cur (tj j)).know s.m.log.length = true := by rw [t8]; simp
  have hacq : o.isAcq = true → ∀ k, g.view.know k = true → (m'.cur (tj j)).know k = true := fun ho k hk => by rw [t8, ho, hk]; simp
  have hsn : ∀ u x, (s.m.cur u).seen x ≤ (m'.cur u).seen x := fun u x => by
    by_cases hu : u = tj j
    · subst hu; rw [t9]
      by_cases hx : x = .head
      · rw [if_pos hx, hx]; omega
      · rw [if_neg hx]; omega
    · rw [t7 u hu]; exact Nat.le_refl _
  have hsa : o.isAcq = true → ∀ x, g.view.seen x ≤ (m'.cur (tj j)).seen x := fun ho x => by rw [t9, if_pos ho]; omega
  clear t4 t5 t6 t7 t8 t9 hm hq
  have hvh := v6 ts g t1 (by rw [← t2]; exact hv0)
  generalize hs' : ({ s with m := m', jc := upd s.jc j .inl } : St) = s'
  have n0 : s'.m = m' := by rw [← hs']
  have n1 : s'.st = s.st := by rw [← hs']
  have n2 : s'.jc = upd s.jc j .inl := by rw [← hs']
  have n3 : s'.d = s.d := by rw [← hs']
  have n4 : s'.term = s.term := by rw [← hs']
  have n5 : s'.lst = s.lst := by rw [← hs']
  have n6 : s'.todo = s.todo := by rw [← hs']
  have n7 : s'.cv = s.cv := by rw [← hs']
  have n8 : s'.met = s.met := by rw [← hs']
  have n9 : s'.kb = s.kb := by rw [← hs']
  have n10 : s'.kh = s.kh := by rw [← hs']
  have n11 : s'.cnt = s.cnt := by rw [← hs']
  have n12 : s'.jng = s.jng := by rw [← hs']
  have n13 : s'.need = s.need := by rw [← hs']
  have n14 : s'.cls = s.cls := by rw [← hs']
  have n15 : s'.jd = s.jd := by rw [← hs']
  have n16 : s'.pJ = s.pJ := by rw [← hs']
  have n17 : s'.hc = s.hc := by rw [← hs']
  have n18 : s'.jw = s.jw := by rw [← hs']
  have n19 : s'.via = s.via := by rw [← hs']
  have hn := na_eq (c := c) n1
  clear hs'
  have p1 : ∀ y, s'.st y = s.st y := fun y => by rw [n1]
  clear n1
  have p2 : ∀ y, s'.jc y = if y = j then .inl else s.jc y := fun y => by rw [n2, upd_apply]
  clear n2
  have p7 : ∀ y, s'.cv y = s.cv y := fun y => by rw [n7]
  clear n7
  have p8 : ∀ y, s'.met y = s.met y := fun y => by rw [n8]
  clear n8
  have p19 : ∀ y, s'.via y = s.via y := fun y => by rw [n19]
  clear n19
  have hz2 : (tj j) % 2 = 0 ∧ tj j ≠ 0 := by simp only [tj]; omega
  refine ⟨?_, ?_, ?_, ?_, by rw [n0]; exact hr⟩
  · clear k1 k2 k3 k4 k5 k6 k7 k8 k9 k10 k11 k12 k13 k14 k15 k16 k17 k18 k19 k20 k21 k22 v1 v2 v3 v4 v5 v6 v7 v8 v9 v10 v11 v12 v13 v14 v15
    constructor
    all_goals first | grind | skip
  · clear k1 k2 k3 k4 k5 k6 k7 k8 k9 k10 k11 k12 k13 k14 k15 k16 k17 k18 k19 k20 k21 k22 v1 v2 v3 v4 v5 v6 v7 v8 v9 v10 v11 v12 v13 v14 v15
    constructor
    all_goals first | grind | skip
  · clear k1 k2 k3 k4 k5 k6 k7 k8 k9 k10 k11 k12 k13 k14 k15 k16 k17 k18 k19 k20 k21 k22
    constructor
    all_goals first | grind | skip
  · clear v5 v6 v8 v9 v10 v11 v12 v13 v14 v15
    constructor
    all_goals first | grind [early] | skip

set_option maxHeartbeats 8000000 in
theorem i_reg {c : Cfg} {s : St} (h : Inv c s) {ts v : Nat} {m' : Mem Loc Acc} {o : Ord} {j : Nat} (hor : o.isRel = true) (hp : s.jc j = .reg) (hv0 : v ≠ 1) (hm : s.m.rmw conf o (tj j) .head ts (fun _ => j + 2) ⟨tj j, .head⟩ = some (v, m')) : Inv c { s with m := m', kh := ts + 1, lst := j :: s.lst, jc := upd s.jc j .wait } := by
  have hpos := fun i => na_pos h.ctl (i := i)
  obtain ⟨c1, c2, c3, c4, c5, c6, c7, c8, c9, c10⟩ := h.ctl
  obtain ⟨j1, j2, j3, j4, j5, j6, j7, j8, j9, j10, j11, j12, j13, j14, j15, j16⟩ := h.j
  obtain ⟨v1, v2, v3, v4, v5, v6, v7, v8, v9, v10, v11, v12, v13, v14, v15⟩ := h.v
  obtain ⟨k1, k2, k3, k4, k5, k6, k7, k8, k9, k10, k11, k12, k13, k14, k15, k16, k17, k18, k19, k20, k21, k22⟩ := h.k
  have hq : s.m.racy conf (tj j) ⟨tj j, .head⟩ = false := by
    rw [racy_false]; intro x b hx hc
    exfalso
    have e2 : s.d = .gone := by
      cases hb : b.what with
      | destroy => exact k5 x b hx hb
      | _ => simp [conf, hb] at hc
    have e3 := j14 j (by simp [e2]) (by simp [hp])
    have e4 := j12 j e3
    simp [hp] at e4
  obtain ⟨g, t1, t2, t3, t4, t5, t6, t7, t8, t9, t10, g', t11, t12, t13, t14⟩ := rmw_spec hm
  have hts : ts = s.kh := by
    rcases Nat.lt_trichotomy ts s.kh with hl | hl | hl
    · exact absurd t4 (v4 (ts + 1) hl)
    · exact hl
    · rw [v3 _ hl] at t1; cases t1
  subst hts
  have hlog := fun k b => logged_snoc t5 k b
  have hlt := logged_lt s.m
  have hr : m'.race = false := by rw [t6, h.noRace, hq]; rfl
  clear h
  have mono : ∀ u k, (s.m.cur u).know k = true → (m'.cur u).know k = true := fun u k hk => by
    by_cases hu : u = tj j
    · rw [hu, t8]; rw [hu] at hk; rw [hk]; rfl
    · rw [t7 u hu]; exact hk
  have hself : (m'.cur (tj j)).know s.m.log.length = true := by rw [t8]; simp
  have hacq : o.isAcq = true → ∀ k, g.view.know k = true → (m'.cur (tj j)).know k = true := fun ho k hk => by rw [t8, hk, ho]; simp
  have hrel : o.isRel = true → ∀ k, (m'.cur (tj j)).know k = true → g'.view.know k = true := fun ho k hk => by rw [t13, hk, ho]; simp
  have hch : ∀ k, g.view.know k = true → g'.view.know k = true := fun k hk => by rw [t13, hk]; rfl
  have hsn : ∀ u x, (s.m.cur u).seen x ≤ (m'.cur u).seen x := fun u x => by
    by_cases hu : u = tj j
    · subst hu; rw [t9]
      by_cases hx : x = .head
      · rw [if_pos hx]; rw [hx]; omega
      · rw [if_neg hx]; omega
    · rw [t7 u hu]; exact Nat.le_refl _
  have hsl : s.kh + 1 ≤ (m'.cur (tj j)).seen .head := by rw [t9, if_pos rfl]; omega
  have hsa : o.isAcq = true → ∀ x, g.view.seen x ≤ (m'.cur (tj j)).seen x := fun ho x => by rw [t9, if_pos ho]; omega
  have hsr : o.isRel = true → ∀ x, (m'.cur (tj j)).seen x ≤ g'.view.seen x := fun ho x => by rw [t14, if_pos ho]; omega
  have hsc : ∀ x, g.view.seen x ≤ g'.view.seen x := fun x => by rw [t14]; omega
  have hf : ∀ j, j ≠ s.kh + 1 → m'.hist .head j = s.m.hist .head j := fun j hj => t10 _ _ (fun e => hj e.2)
  have hg : ∀ x j, x ≠ .head → m'.hist x j = s.m.hist x j := fun x j hx => t10 _ _ (fun e => hx e.1)
  have hgo := fun j => hg .bits j (by decide)
  clear t5 t6 t7 t8 t9 t10 t13 t14 hm hq hg
  have hhc : s.hc = false := by
    cases hx : s.hc
    · rfl
    · exact absurd (v7 g hx t1) (by rw [← t2]; exact hv0)
  generalize hs' : ({ s with m := m', kh := s.kh + 1, lst := j :: s.lst, jc := upd s.jc j .wait } : St) = s'
  have n0 : s'.m = m' := by rw [← hs']
  have n1 : s'.st = s.st := by rw [← hs']
  have n2 : s'.jc = upd s.jc j .wait := by rw [← hs']
  have n3 : s'.d = s.d := by rw [← hs']
  have n4 : s'.term = s.term := by rw [← hs']
  have n5 : s'.lst = j :: s.lst := by rw [← hs']
  have n6 : s'.todo = s.todo := by rw [← hs']
  have n7 : s'.cv = s.cv := by rw [← hs']
  have n8 : s'.met = s.met := by rw [← hs']
  have n9 : s'.kb = s.kb := by rw [← hs']
  have n10 : s'.kh = s.kh + 1 := by rw [← hs']
  have n11 : s'.cnt = s.cnt := by rw [← hs']
  have n12 : s'.jng = s.jng := by rw [← hs']
  have n13 : s'.need = s.need := by rw [← hs']
  have n14 : s'.cls = s.cls := by rw [← hs']
  have n15 : s'.jd = s.jd := by rw [← hs']
  have n16 : s'.pJ = s.pJ := by rw [← hs']
  have n17 : s'.hc = s.hc := by rw [← hs']
  have n18 : s'.jw = s.jw := by rw [← hs']
  have n19 : s'.via = s.via := by rw [← hs']
  have hn := na_eq (c := c) n1
  clear hs'
  have p1 : ∀ y, s'.st y = s.st y := fun y => by rw [n1]
  clear n1
  have p2 : ∀ y, s'.jc y = if y = j then .wait else s.jc y := fun y => by rw [n2, upd_apply]
  clear n2
  have p7 : ∀ y, s'.cv y = s.cv y := fun y => by rw [n7]
  clear n7
  have p8 : ∀ y, s'.met y = s.met y := fun y => by rw [n8]
  clear n8
  have p19 : ∀ y, s'.via y = s.via y := fun y => by rw [n19]
  clear n19
  have hz2 : (tj j) % 2 = 0 ∧ tj j ≠ 0 := by simp only [tj]; omega
  refine ⟨?_, ?_, ?_, ?_, by rw [n0]; exact hr⟩
  · clear k1 k2 k3 k4 k5 k6 k7 k8 k9 k10 k11 k12 k13 k14 k15 k16 k17 k18 k19 k20 k21 k22 v1 v2 v3 v4 v5 v6 v7 v8 v9 v10 v11 v12 v13 v14 v15
    constructor
    all_goals first | grind | skip
  · clear k1 k2 k3 k4 k5 k6 k7 k8 k9 k10 k11 k12 k13 k14 k15 k16 k17 k18 k19 k20 k21 k22 v1 v2 v3 v4 v5 v6 v7 v8 v9 v10 v11 v12 v13 v14 v15
    constructor
    all_goals first | grind | skip
  · clear k1 k2 k3 k4 k5 k6 k7 k8 k9 k10 k11 k12 k13 k14 k15 k16 k17 k18 k19 k20 k21 k22
    constructor
    all_goals first | grind | skip
  · clear v5 v6 v8 v9 v10 v11 v12 v13 v14 v15
    constructor
    all_goals first | grind [early] | skip

set_option maxHeartbeats 8000000 in
theorem i_inl {c : Cfg} {s : St} (h : Inv c s) {j : Nat} (hp : s.jc j = .inl) : Inv c { s with m := s.m.touch conf (tj j) ⟨tj j, .op j⟩, jc := upd s.jc j .done, cv := upd s.cv j ((s.m.touch conf (tj j) ⟨tj j, .op j⟩).cur (tj j)) } := by
  have hpos := fun i => na_pos h.ctl (i := i)
  obtain ⟨c1, c2, c3, c4, c5, c6, c7, c8, c9, c10⟩ := h.ctl
  obtain ⟨j1, j2, j3, j4, j5, j6, j7, j8, j9, j10, j11, j12, j13, j14, j15, j16⟩ := h.j
  obtain ⟨v1, v2, v3, v4, v5, v6, v7, v8, v9, v10, v11, v12, v13, v14, v15⟩ := h.v
  obtain ⟨k1, k2, k3, k4, k5, k6, k7, k8, k9, k10, k11, k12, k13, k14, k15, k16, k17, k18, k19, k20, k21, k22⟩ := h.k
  have hq : s.m.racy conf (tj j) ⟨tj j, .op j⟩ = false := by
    rw [racy_false]; intro x b hx hc
    cases hb : b.what with
    | destroy =>
      exfalso
      have e2 := k5 x b hx hb
      have e3 := j14 j (by simp [e2]) (by simp [hp])
      have e4 := j12 j e3
      simp [hp] at e4
    | op l =>
      have e : l = j := by simpa [conf, hb] using hc
      rw [e] at hb
      rcases k4 x b j hx hb with e | e
      · have := k1 x b hx; rw [e] at this; exact this
      · simp [hp] at e
    | _ => simp [conf, hb] at hc
  obtain ⟨t1, t2, t3, t4, t5, t6⟩ := touch_spec conf s.m (tj j) ⟨tj j, .op j⟩
  have hlog := fun k b => logged_snoc t2 k b
  have hlt := logged_lt s.m
  have hr : (s.m.touch conf (tj j) ⟨tj j, .op j⟩).race = false := by rw [t3, h.noRace, hq]; rfl
  clear h
  try simp only [use]
  generalize s.m.touch conf (tj j) ⟨tj j, .op j⟩ = m' at *
  have hh : ∀ l j, m'.hist l j = s.m.hist l j := fun l j => by rw [t1]
  have mono : ∀ u k, (s.m.cur u).know k = true → (m'.cur u).know k = true := fun u k hk => by
    by_cases hu : u = tj j
    · rw [hu, t5]; rw [hu] at hk; rw [hk]; rfl
    · rw [t4 u hu]; exact hk
  have hself : (m'.cur (tj j)).know s.m.log.length = true := by rw [t5]; simp
  have hsn : ∀ u x, (m'.cur u).seen x = (s.m.cur u).seen x := fun u x => by
    by_cases hu : u = tj j
    · rw [hu, t6]
    · rw [t4 u hu]
  clear t1 t2 t3 t4 t5 t6 hq
  generalize hs' : ({ s with m := m', jc := upd s.jc j .done, cv := upd s.cv j ((m').cur (tj j)) } : St) = s'
  have n0 : s'.m = m' := by rw [← hs']
  have n1 : s'.st = s.st := by rw [← hs']
  have n2 : s'.jc = upd s.jc j .done := by rw [← hs']
  have n3 : s'.d = s.d := by rw [← hs']
  have n4 : s'.term = s.term := by rw [← hs']
  have n5 : s'.lst = s.lst := by rw [← hs']
  have n6 : s'.todo = s.todo := by rw [← hs']
  have n7 : s'.cv = upd s.cv j ((m').cur (tj j)) := by rw [← hs']
  have n8 : s'.met = s.met := by rw [← hs']
  have n9 : s'.kb = s.kb := by rw [← hs']
  have n10 : s'.kh = s.kh := by rw [← hs']
  have n11 : s'.cnt = s.cnt := by rw [← hs']
  have n12 : s'.jng = s.jng := by rw [← hs']
  have n13 : s'.need = s.need := by rw [← hs']
  have n14 : s'.cls = s.cls := by rw [← hs']
  have n15 : s'.jd = s.jd := by rw [← hs']
  have n16 : s'.pJ = s.pJ := by rw [← hs']
  have n17 : s'.hc = s.hc := by rw [← hs']
  have n18 : s'.jw = s.jw := by rw [← hs']
  have n19 : s'.via = s.via := by rw [← hs']
  have hn := na_eq (c := c) n1
  clear hs'
  have p1 : ∀ y, s'.st y = s.st y := fun y => by rw [n1]
  clear n1
  have p2 : ∀ y, s'.jc y = if y = j then .done else s.jc y := fun y => by rw [n2, upd_apply]
  clear n2
  have p7 : ∀ y, s'.cv y = if y = j then ((m').cur (tj j)) else s.cv y := fun y => by rw [n7, upd_apply]
  clear n7
  have p8 : ∀ y, s'.met y = s.met y := fun y => by rw [n8]
  clear n8
  have p19 : ∀ y, s'.via y = s.via y := fun y => by rw [n19]
  clear n19
  have hz2 : (tj j) % 2 = 0 ∧ tj j ≠ 0 := by simp only [tj]; omega
  refine ⟨?_, ?_, ?_, ?_, by rw [n0]; exact hr⟩
  · clear k1 k2 k3 k4 k5 k6 k7 k8 k9 k10 k11 k12 k13 k14 k15 k16 k17 k18 k19 k20 k21 k22 v1 v2 v3 v4 v5 v6 v7 v8 v9 v10 v11 v12 v13 v14 v15
    constructor
    all_goals first | grind | skip
  · clear k1 k2 k3 k4 k5 k6 k7 k8 k9 k10 k11 k12 k13 k14 k15 k16 k17 k18 k19 k20 k21 k22 v1 v2 v3 v4 v5 v6 v7 v8 v9 v10 v11 v12 v13 v14 v15
    constructor
    all_goals first | grind | skip
  · clear k1 k2 k3 k4 k5 k6 k7 k8 k9 k10 k11 k12 k13 k14 k15 k16 k17 k18 k19 k20 k21 k22
    constructor
    all_goals first | grind | skip
  · clear v5 v6 v8 v9 v10 v11 v12 v13 v14 v15
    constructor
    all_goals first | grind [early] | skip

set_option maxHeartbeats 8000000 in
theorem i_load {c : Cfg} {s : St} (h : Inv c s) {ts v : Nat} {m' : Mem Loc Acc} {o : Ord} (hp : s.d = .live) (ho1 : ∀ j, s.jc j ≠ .idle → s.met j = true) (ho2 : ∃ j, s.met j = true) (hm : s.m.load conf o (0) .bits ts ⟨0, .bits⟩ = some (v, m')) : Inv c { s with m := m', d := .load, term := (s.term || decide (v - v % 2 ≠ 0)) } := by
  have hpos := fun i => na_pos h.ctl (i := i)
  obtain ⟨c1, c2, c3, c4, c5, c6, c7, c8, c9, c10⟩ := h.ctl
  obtain ⟨j1, j2, j3, j4, j5, j6, j7, j8, j9, j10, j11, j12, j13, j14, j15, j16⟩ := h.j
  obtain ⟨v1, v2, v3, v4, v5, v6, v7, v8, v9, v10, v11, v12, v13, v14, v15⟩ := h.v
  obtain ⟨k1, k2, k3, k4, k5, k6, k7, k8, k9, k10, k11, k12, k13, k14, k15, k16, k17, k18, k19, k20, k21, k22⟩ := h.k
  have hq : s.m.racy conf (0) ⟨0, .bits⟩ = false := by
    rw [racy_false]; intro x b hx hc
    exfalso
    have e2 : s.d = .gone := by
      cases hb : b.what with
      | destroy => exact k5 x b hx hb
      | _ => simp [conf, hb] at hc
    simp_all
  obtain ⟨g, t1, t2, t3, t4, t5, t6, t7, t8, t9⟩ := load_spec hm
  have hlog := fun k b => logged_snoc t5 k b
  have hlt := logged_lt s.m
  have hr : m'.race = false := by rw [t6, h.noRace, hq]; rfl
  clear h
  have hh : ∀ l j, m'.hist l j = s.m.hist l j := fun l j => by rw [t4]
  have mono : ∀ u k, (s.m.cur u).know k = true → (m'.cur u).know k = true := fun u k hk => by
    by_cases hu : u = 0
    · rw [hu, t8]; rw [hu] at hk; rw [hk]; rfl
    · rw [t7 u hu]; exact hk
  have hself : (m'.cur (0)).know s.m.log.length = true := by rw [t8]; simp
  have hacq : o.isAcq = true → ∀ k, g.view.know k = true → (m'.cur (0)).know k = true := fun ho k hk => by rw [t8, ho, hk]; simp
  have hsn : ∀ u x, (s.m.cur u).seen x ≤ (m'.cur u).seen x := fun u x => by
    by_cases hu : u = 0
    · subst hu; rw [t9]
      by_cases hx : x = .bits
      · rw [if_pos hx, hx]; omega
      · rw [if_neg hx]; omega
    · rw [t7 u hu]; exact Nat.le_refl _
  have hsa : o.isAcq = true → ∀ x, g.view.seen x ≤ (m'.cur (0)).seen x := fun ho x => by rw [t9, if_pos ho]; omega
  clear t4 t5 t6 t7 t8 t9 hm hq
  obtain ⟨jm, hjm⟩ := ho2
  have hjd := j11 jm (Or.inr (j12 jm hjm))
  have hv1 : v = 1 := by rw [t2]; exact v9 ts g hjd (Nat.le_trans (v12 jm hjm) t3) t1
  have htm : (s.term || decide (v - v % 2 ≠ 0)) = false := by rw [v15, hv1]; rfl
  generalize hs' : ({ s with m := m', d := .load, term := (s.term || decide (v - v % 2 ≠ 0)) } : St) = s'
  have n0 : s'.m = m' := by rw [← hs']
  have n1 : s'.st = s.st := by rw [← hs']
  have n2 : s'.jc = s.jc := by rw [← hs']
  have n3 : s'.d = .load := by rw [← hs']
  have n4 : s'.term = (s.term || decide (v - v % 2 ≠ 0)) := by rw [← hs']
  have n5 : s'.lst = s.lst := by rw [← hs']
  have n6 : s'.todo = s.todo := by rw [← hs']
  have n7 : s'.cv = s.cv := by rw [← hs']
  have n8 : s'.met = s.met := by rw [← hs']
  have n9 : s'.kb = s.kb := by rw [← hs']
  have n10 : s'.kh = s.kh := by rw [← hs']
  have n11 : s'.cnt = s.cnt := by rw [← hs']
  have n12 : s'.jng = s.jng := by rw [← hs']
  have n13 : s'.need = s.need := by rw [← hs']
  have n14 : s'.cls = s.cls := by rw [← hs']
  have n15 : s'.jd = s.jd := by rw [← hs']
  have n16 : s'.pJ = s.pJ := by rw [← hs']
  have n17 : s'.hc = s.hc := by rw [← hs']
  have n18 : s'.jw = s.jw := by rw [← hs']
  have n19 : s'.via = s.via := by rw [← hs']
  have hn := na_eq (c := c) n1
  clear hs'
  have p1 : ∀ y, s'.st y = s.st y := fun y => by rw [n1]
  clear n1
  have p2 : ∀ y, s'.jc y = s.jc y := fun y => by rw [n2]
  clear n2
  have p7 : ∀ y, s'.cv y = s.cv y := fun y => by rw [n7]
  clear n7
  have p8 : ∀ y, s'.met y = s.met y := fun y => by rw [n8]
  clear n8
  have p19 : ∀ y, s'.via y = s.via y := fun y => by rw [n19]
  clear n19
  refine ⟨?_, ?_, ?_, ?_, by rw [n0]; exact hr⟩
  · clear k1 k2 k3 k4 k5 k6 k7 k8 k9 k10 k11 k12 k13 k14 k15 k16 k17 k18 k19 k20 k21 k22 v1 v2 v3 v4 v5 v6 v7 v8 v9 v10 v11 v12 v13 v14 v15
    constructor
    all_goals first | grind | skip
  · clear k1 k2 k3 k4 k5 k6 k7 k8 k9 k10 k11 k12 k13 k14 k15 k16 k17 k18 k19 k20 k21 k22 v1 v2 v3 v4 v5 v6 v7 v8 v9 v10 v11 v12 v13 v14 v15
    constructor
    all_goals first | grind | skip
  · clear k1 k2 k3 k4 k5 k6 k7 k8 k9 k10 k11 k12 k13 k14 k15 k16 k17 k18 k19 k20 k21 k22
    constructor
    all_goals first | grind | skip
  · clear v5 v6 v8 v9 v10 v11 v12 v13 v14 v15
    constructor
    all_goals first | grind [early] | skip

set_option maxHeartbeats 8000000 in
theorem i_destroy {c : Cfg} {s : St} (h : Inv c s) (hp : s.d = .load) : Inv c { s with m := s.m.touch conf (0) ⟨0, .destroy⟩, d := .gone } := by
  have hpos := fun i => na_pos h.ctl (i := i)
  obtain ⟨c1, c2, c3, c4, c5, c6, c7, c8, c9, c10⟩ := h.ctl
  obtain ⟨j1, j2, j3, j4, j5, j6, j7, j8, j9, j10, j11, j12, j13, j14, j15, j16⟩ := h.j
  obtain ⟨v1, v2, v3, v4, v5, v6, v7, v8, v9, v10, v11, v12, v13, v14, v15⟩ := h.v
  obtain ⟨k1, k2, k3, k4, k5, k6, k7, k8, k9, k10, k11, k12, k13, k14, k15, k16, k17, k18, k19, k20, k21, k22⟩ := h.k
  have hall : ∀ x b, s.m.logged x b → (s.m.cur 0).know x = true := fun x b hx => by
    have hd : s.d ≠ .live := by simp [hp]
    rcases Nat.eq_zero_or_pos b.who with e | e
    · have := k1 x b hx; rw [e] at this; exact this
    · rcases Nat.mod_two_eq_zero_or_one b.who with e2 | e2
      · have e3 : b.who = tj (b.who / 2 - 1) := by simp only [tj]; omega
        have e4 := j14 _ hd (k3 x b _ hx e3)
        exact k18 x _ e4 (k17 x b _ (j12 _ e4) hx (Or.inl e3))
      · have e3 := e2
        obtain ⟨jm, hjm⟩ := j16 hd
        cases hb : b.what with
        | bits => exact k18 x jm hjm (k11 x b jm (j12 _ hjm) hx e3 (Or.inl hb))
        | work => exact k18 x jm hjm (k11 x b jm (j12 _ hjm) hx e3 (Or.inr hb))
        | head =>
          obtain ⟨g, hg⟩ := Option.ne_none_iff_exists'.mp (v4 s.kh (Nat.le_refl _))
          have hh := (k7 x b g hx e3 hb hg).1
          have hv := j9 hh
          have e4 := j14 _ hd (j6 _ hv).1
          exact k18 x _ e4 (k13 x b _ hv (j12 _ e4) hx e3 hb)
        | op l =>
          rcases k4 x b l hx hb with e5 | e5
          · exfalso; simp only [tj] at e5; omega
          · have e4 := j14 l hd (by simp [e5])
            exact k18 x _ e4 (k17 x b _ e5 hx (Or.inr hb))
        | destroy => exact absurd hb (k20 x b hx e3)
  have hq : s.m.racy conf (0) ⟨0, .destroy⟩ = false := by
    rw [racy_false]; intro x b hx hc
    exact hall x b hx
  obtain ⟨t1, t2, t3, t4, t5, t6⟩ := touch_spec conf s.m (0) ⟨0, .destroy⟩
  have hlog := fun k b => logged_snoc t2 k b
  have hlt := logged_lt s.m
  have hr : (s.m.touch conf (0) ⟨0, .destroy⟩).race = false := by rw [t3, h.noRace, hq]; rfl
  clear h
  try simp only [use]
  generalize s.m.touch conf (0) ⟨0, .destroy⟩ = m' at *
  have hh : ∀ l j, m'.hist l j = s.m.hist l j := fun l j => by rw [t1]
  have mono : ∀ u k, (s.m.cur u).know k = true → (m'.cur u).know k = true := fun u k hk => by
    by_cases hu : u = 0
    · rw [hu, t5]; rw [hu] at hk; rw [hk]; rfl
    · rw [t4 u hu]; exact hk
  have hself : (m'.cur (0)).know s.m.log.length = true := by rw [t5]; simp
  have hsn : ∀ u x, (m'.cur u).seen x = (s.m.cur u).seen x := fun u x => by
    by_cases hu : u = 0
    · rw [hu, t6]
    · rw [t4 u hu]
  clear t1 t2 t3 t4 t5 t6 hq
  generalize hs' : ({ s with m := m', d := .gone } : St) = s'
  have n0 : s'.m = m' := by rw [← hs']
  have n1 : s'.st = s.st := by rw [← hs']
  have n2 : s'.jc = s.jc := by rw [← hs']
  have n3 : s'.d = .gone := by rw [← hs']
  have n4 : s'.term = s.term := by rw [← hs']
  have n5 : s'.lst = s.lst := by rw [← hs']
  have n6 : s'.todo = s.todo := by rw [← hs']
  have n7 : s'.cv = s.cv := by rw [← hs']
  have n8 : s'.met = s.met := by rw [← hs']
  have n9 : s'.kb = s.kb := by rw [← hs']
  have n10 : s'.kh = s.kh := by rw [← hs']
  have n11 : s'.cnt = s.cnt := by rw [← hs']
  have n12 : s'.jng = s.jng := by rw [← hs']
  have n13 : s'.need = s.need := by rw [← hs']
  have n14 : s'.cls = s.cls := by rw [← hs']
  have n15 : s'.jd = s.jd := by rw [← hs']
  have n16 : s'.pJ = s.pJ := by rw [← hs']
  have n17 : s'.hc = s.hc := by rw [← hs']
  have n18 : s'.jw = s.jw := by rw [← hs']
  have n19 : s'.via = s.via := by rw [← hs']
  have hn := na_eq (c := c) n1
  clear hs'
  have p1 : ∀ y, s'.st y = s.st y := fun y => by rw [n1]
  clear n1
  have p2 : ∀ y, s'.jc y = s.jc y := fun y => by rw [n2]
  clear n2
  have p7 : ∀ y, s'.cv y = s.cv y := fun y => by rw [n7]
  clear n7
  have p8 : ∀ y, s'.met y = s.met y := fun y => by rw [n8]
  clear n8
  have p19 : ∀ y, s'.via y = s.via y := fun y => by rw [n19]
  clear n19
  refine ⟨?_, ?_, ?_, ?_, by rw [n0]; exact hr⟩
  · clear k1 k2 k3 k4 k5 k6 k7 k8 k9 k10 k11 k12 k13 k14 k15 k16 k17 k18 k19 k20 k21 k22 v1 v2 v3 v4 v5 v6 v7 v8 v9 v10 v11 v12 v13 v14 v15
    constructor
    all_goals first | grind | skip
  · clear k1 k2 k3 k4 k5 k6 k7 k8 k9 k10 k11 k12 k13 k14 k15 k16 k17 k18 k19 k20 k21 k22 v1 v2 v3 v4 v5 v6 v7 v8 v9 v10 v11 v12 v13 v14 v15
    constructor
    all_goals first | grind | skip
  · clear k1 k2 k3 k4 k5 k6 k7 k8 k9 k10 k11 k12 k13 k14 k15 k16 k17 k18 k19 k20 k21 k22
    constructor
    all_goals first | grind | skip
  · clear v5 v6 v8 v9 v10 v11 v12 v13 v14 v15
    constructor
    all_goals first | grind [early] | skip

set_option maxHeartbeats 8000000 in
theorem i_meet {c : Cfg} {s : St} (h : Inv c s) {j : Nat} (hp : s.jc j = .done) : Inv c { s with m := s.m.adopt 0 (s.cv j), met := upd s.met j true } := by
  have hpos := fun i => na_pos h.ctl (i := i)
  obtain ⟨c1, c2, c3, c4, c5, c6, c7, c8, c9, c10⟩ := h.ctl
  obtain ⟨j1, j2, j3, j4, j5, j6, j7, j8, j9, j10, j11, j12, j13, j14, j15, j16⟩ := h.j
  obtain ⟨v1, v2, v3, v4, v5, v6, v7, v8, v9, v10, v11, v12, v13, v14, v15⟩ := h.v
  obtain ⟨k1, k2, k3, k4, k5, k6, k7, k8, k9, k10, k11, k12, k13, k14, k15, k16, k17, k18, k19, k20, k21, k22⟩ := h.k
  have hr : (s.m.adopt 0 (s.cv j)).race = false := h.noRace
  clear h
  have hh : ∀ l y, (s.m.adopt 0 (s.cv j)).hist l y = s.m.hist l y := fun _ _ => rfl
  have hlg : ∀ x a, (s.m.adopt 0 (s.cv j)).logged x a ↔ s.m.logged x a := fun _ _ => Iff.rfl
  have hcu : ∀ u, u ≠ 0 → (s.m.adopt 0 (s.cv j)).cur u = s.m.cur u := fun u hu => by simp [Mem.adopt, upd_apply, hu]
  have hk0 : ∀ x, ((s.m.adopt 0 (s.cv j)).cur 0).know x = ((s.m.cur 0).know x || (s.cv j).know x) := fun x => by
    simp [Mem.adopt, upd_apply, View.join]
  have hs0 : ∀ l, ((s.m.adopt 0 (s.cv j)).cur 0).seen l = max ((s.m.cur 0).seen l) ((s.cv j).seen l) := fun x => by
    simp [Mem.adopt, upd_apply, View.join]
  generalize s.m.adopt 0 (s.cv j) = m' at *
  have mono : ∀ u k, (s.m.cur u).know k = true → (m'.cur u).know k = true := fun u k hk => by
    by_cases hu : u = 0
    · rw [hu, hk0]; rw [hu] at hk; rw [hk]; rfl
    · rw [hcu u hu]; exact hk
  have hsn : ∀ u x, (s.m.cur u).seen x ≤ (m'.cur u).seen x := fun u x => by
    by_cases hu : u = 0
    · rw [hu, hs0]; omega
    · rw [hcu u hu]; exact Nat.le_refl _
  have hta : ∀ y, ta y ≠ 0 := fun y => by simp only [ta]; omega
  have htj : ∀ y, tj y ≠ 0 := fun y => by simp only [tj]; omega
  generalize hs' : ({ s with m := m', met := upd s.met j true } : St) = s'
  have n0 : s'.m = m' := by rw [← hs']
  have n1 : s'.st = s.st := by rw [← hs']
  have n2 : s'.jc = s.jc := by rw [← hs']
  have n3 : s'.d = s.d := by rw [← hs']
  have n4 : s'.term = s.term := by rw [← hs']
  have n5 : s'.lst = s.lst := by rw [← hs']
  have n6 : s'.todo = s.todo := by rw [← hs']
  have n7 : s'.cv = s.cv := by rw [← hs']
  have n8 : s'.met = upd s.met j true := by rw [← hs']
  have n9 : s'.kb = s.kb := by rw [← hs']
  have n10 : s'.kh = s.kh := by rw [← hs']
  have n11 : s'.cnt = s.cnt := by rw [← hs']
  have n12 : s'.jng = s.jng := by rw [← hs']
  have n13 : s'.need = s.need := by rw [← hs']
  have n14 : s'.cls = s.cls := by rw [← hs']
  have n15 : s'.jd = s.jd := by rw [← hs']
  have n16 : s'.pJ = s.pJ := by rw [← hs']
  have n17 : s'.hc = s.hc := by rw [← hs']
  have n18 : s'.jw = s.jw := by rw [← hs']
  have n19 : s'.via = s.via := by rw [← hs']
  have hn := na_eq (c := c) n1
  clear hs'
  have p1 : ∀ y, s'.st y = s.st y := fun y => by rw [n1]
  clear n1
  have p2 : ∀ y, s'.jc y = s.jc y := fun y => by rw [n2]
  clear n2
  have p7 : ∀ y, s'.cv y = s.cv y := fun y => by rw [n7]
  clear n7
  have p8 : ∀ y, s'.met y = if y = j then true else s.met y := fun y => by rw [n8, upd_apply]
  clear n8
  have p19 : ∀ y, s'.via y = s.via y := fun y => by rw [n19]
  clear n19
  refine ⟨?_, ?_, ?_, ?_, by rw [n0]; exact hr⟩
  · clear k1 k2 k3 k4 k5 k6 k7 k8 k9 k10 k11 k12 k13 k14 k15 k16 k17 k18 k19 k20 k21 k22 v1 v2 v3 v4 v5 v6 v7 v8 v9 v10 v11 v12 v13 v14 v15
    constructor
    all_goals first | grind | skip
  · clear k1 k2 k3 k4 k5 k6 k7 k8 k9 k10 k11 k12 k13 k14 k15 k16 k17 k18 k19 k20 k21 k22 v1 v2 v3 v4 v5 v6 v7 v8 v9 v10 v11 v12 v13 v14 v15
    constructor
    all_goals first | grind | skip
  · clear k1 k2 k3 k4 k5 k6 k7 k8 k9 k10 k11 k12 k13 k14 k15 k16 k17 k18 k19 k20 k21 k22
    constructor
    all_goals first | grind | skip
  · clear v5 v6 v8 v9 v10 v11 v12 v13 v14 v15
    constructor
    all_goals first | grind [early] | skip

end Verif.WmScope
