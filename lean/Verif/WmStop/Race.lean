import Verif.WmStop.Eqs
/-!
# Stop callbacks under the C++ memory model — no step races (C94)
-/
namespace Verif.WmStop

open Verif.WM

theorem conf_atom (b : Acc) (t : Nat) : conf b ⟨t, .atom⟩ = false := by
  obtain ⟨w, b⟩ := b; cases b <;> rfl

theorem conf_crit {b : Acc} {t : Nat} {l : List Nat} (h : conf b ⟨t, .crit l⟩ = true) :
    b.what.isCrit = true ∨ ∃ i, i ∈ l ∧ (b.what = .make i ∨ b.what = .free i) := by
  obtain ⟨w, b⟩ := b; cases b <;> simp_all [conf, What.on, What.life, What.isCrit]

theorem conf_run {b : Acc} {t i : Nat} (h : conf b ⟨t, .run i⟩ = true) :
    b.what = .make i ∨ b.what = .free i ∨ b.what = .run i := by
  obtain ⟨w, b⟩ := b; cases b <;> simp_all [conf, What.on, What.life]

theorem conf_flag {b : Acc} {t i : Nat} (h : conf b ⟨t, .flag i⟩ = true) : b.what = .make i ∨ b.what = .free i := by
  obtain ⟨w, b⟩ := b; cases b <;> simp_all [conf, What.on, What.life]

theorem conf_make {b : Acc} {t i : Nat} (h : conf b ⟨t, .make i⟩ = true) : b.what.on i = true := by
  obtain ⟨w, b⟩ := b; cases b <;> simp_all [conf, What.on, What.life]

theorem conf_free {b : Acc} {t i : Nat} (h : conf b ⟨t, .free i⟩ = true) : b.what.on i = true := by
  obtain ⟨w, b⟩ := b; cases b <;> simp_all [conf, What.on, What.life]

theorem conf_uw {b : Acc} {t : Nat} (h : conf b ⟨t, .uw⟩ = true) : b.what = .uw ∨ b.what = .ur := by
  obtain ⟨w, b⟩ := b; cases b <;> simp_all [conf, What.on, What.life]

theorem conf_ur {b : Acc} {t : Nat} (h : conf b ⟨t, .ur⟩ = true) : b.what = .uw := by
  obtain ⟨w, b⟩ := b; cases b <;> simp_all [conf, What.on, What.life]

/-- The holder of the lock may access the list and callback `i`, whose construction it knows and which is not destroyed. -/
theorem crit_ok {c : Cfg} {x : Ctl} {m : Mem Loc Acc} {ks t k i : Nat} {b : Acc} {l : List Nat} (he : E c x m.logged)
    (hK : K x m ks) (hh : x.holder = some t) (hl : ∀ j, j ∈ l → j = i ∨ j ∈ x.list)
    (hm : i ∈ l → ∀ k b, m.logged k b → b.what = .make i → (m.cur t).know k = true)
    (hf : i ∈ l → ∀ k b, m.logged k b → b.what ≠ .free i)
    (hk : m.logged k b) (hc : conf b ⟨t, .crit l⟩ = true) : (m.cur t).know k = true := by
  rcases conf_crit hc with hc | ⟨j, hj, hc⟩
  · exact hK.critH t k b hh hk hc
  · rcases hl j hj with hx | hx
    · subst hx
      rcases hc with hc | hc
      · exact hm hj k b hk hc
      · exact absurd hc (hf hj k b hk)
    · rcases hc with hc | hc
      · exact hK.makeH t k b j hh hk hc hx
      · exact absurd hc (he.noFreeL j k b hx hk)

theorem race_step {c : Cfg} {x y : Ctl} {t ks : Nat} {w : What} {κ : Kind} {m : Mem Loc Acc} (tr : Tr c x y t w κ)
    (hp : P c x) (he : E c x m.logged) (hK : K x m ks) (hD : D c x m) (hU : U c x m) : m.racy conf t ⟨t, w⟩ = false := by
  rw [racy_false]
  intro k b hk hc
  have own := hK.own k b hk
  have mw := he.makeW
  cases tr
  case uw h => have := he.uwI h k b hk; have := conf_uw hc; grind
  case note h => exact crit_ok (i := 0) he hK (hp.holdR (by rw [h]; rfl)) (by simp) (by simp) (by simp) hk hc
  case loop0 h _ => exact crit_ok (i := 0) he hK (hp.holdR (by rw [h]; rfl)) (by simp) (by simp) (by simp) hk hc
  case pop i l h hl =>
    have hin : i ∈ x.list := by rw [hl]; simp
    exact crit_ok (i := i) he hK (hp.holdR (by rw [h]; rfl)) (by rw [hl]; simp)
      (fun _ k b h1 h2 => hK.makeH 0 k b i (hp.holdR (by rw [h]; rfl)) h1 h2 hin) (fun _ k b h1 => he.noFreeL i k b hin h1) hk hc
  case sc i h =>
    have hin : hand i x.r = true := by rw [h]; simp [hand]
    exact crit_ok (i := i) he hK (hp.holdR (by rw [h]; rfl)) (by simp) (fun _ k b h1 h2 => hK.handMake i k b hin h1 h2)
      (fun _ k b h1 => he.noFreeH i k b hin h1) hk hc
  case push hi h =>
    exact crit_ok (i := t) he hK (hp.holdO t (by rw [h]; rfl)) (by simp) (fun _ k b h1 h2 => by
      have := hK.own k b h1; rwa [mw k b t h1 h2] at this) (fun _ k b h1 => he.noFreeF t k b (.inl (by rw [h]; rfl)) h1) hk hc
  case remF v hi h _ =>
    have hs : c.self t = false := by cases hs : c.self t with | false => rfl | true => have := hp.selfO t hs; rw [h] at this; cases this
    exact crit_ok (i := t) he hK (hp.holdO t (by rw [h]; rfl)) (by simp) (fun _ k b h1 h2 => by
      have := hK.own k b h1; rwa [mw k b t h1 h2] at this) (fun _ k b h1 => he.noFreeO t k b hs (by simp [h]) h1) hk hc
  case remW v hi h _ =>
    have hs : c.self t = false := by cases hs : c.self t with | false => rfl | true => have := hp.selfO t hs; rw [h] at this; cases this
    exact crit_ok (i := t) he hK (hp.holdO t (by rw [h]; rfl)) (by simp) (fun _ k b h1 h2 => by
      have := hK.own k b h1; rwa [mw k b t h1 h2] at this) (fun _ k b h1 => he.noFreeO t k b hs (by simp [h]) h1) hk hc
  case callS i h _ =>
    have hin : hand i x.r = true := by rw [h]; simp [hand]
    have := hK.handMake i k b hin hk; have := he.noFreeH i k b hin hk; have := he.noRunH i k b hin (by rw [h]; rfl) hk
    have := conf_run hc; grind
  case callD i h _ =>
    have hin : hand i x.r = true := by rw [h]; simp [hand]
    have := hK.handMake i k b hin hk; have := he.noFreeH i k b hin hk; have := he.noRunH i k b hin (by rw [h]; rfl) hk
    have := conf_run hc; grind
  case dn i h =>
    have hin : hand i x.r = true := by rw [h]; simp [hand]
    have := hK.handMake i k b hin hk; have := he.noFreeH i k b hin hk
    have := conf_flag hc; grind
  case sf i h => exact hD.handCrit i k b (.inr h) hk (conf_free hc)
  case make hi h =>
    have := he.idleO t k b (.inl h) hk; rw [conf_make hc] at this; cases this
  case wait0 hi h =>
    have hs : c.self t = false := by cases hs : c.self t with | false => rfl | true => have := hp.selfO t hs; rw [h] at this; cases this
    have := he.noFreeO t k b hs (by simp [h]) hk; have := mw k b t hk; have := conf_flag hc; grind
  case wait1 v _ _ h _ _ =>
    have hs : c.self t = false := by cases hs : c.self t with | false => rfl | true => have := hp.selfO t hs; rw [h] at this; cases this
    have := he.noFreeO t k b hs (by simp [h]) hk; have := mw k b t hk; have := conf_flag hc; grind
  case inlN hi h _ =>
    have := he.noFreeF t k b (.inl (by rw [h]; rfl)) hk; have := mw k b t hk
    have := he.noRunO t k b (by rw [h]; rfl) (by simp [h]) hk; have := conf_run hc; grind
  case inl hi h _ =>
    have := he.noFreeF t k b (.inl (by rw [h]; rfl)) hk; have := mw k b t hk
    have := he.noRunO t k b (by rw [h]; rfl) (by simp [h]) hk; have := conf_run hc; grind
  case inl2 hi h => exact hU.uwP t k b (.inr h) (hp.inl2R t h) hk (conf_ur hc)
  case saw hi h => exact hU.uwS t k b h hk (conf_ur hc)
  case fr hi h => exact hD.knowO t k b (by rw [h]; rfl) hk (conf_free hc)
  all_goals rw [conf_atom] at hc; cases hc

theorem com_touch (m : Mem Loc Acc) (t : Nat) (w : What) : Com m (m.touch conf t ⟨t, w⟩) t w := by
  obtain ⟨t1, t2, t3, t4, t5, t6⟩ := touch_spec conf m t ⟨t, w⟩
  refine ⟨logged_snoc t2, logged_lt m, fun u k h => ?_, by rw [t5]; simp, fun u l => ?_, t3⟩
  · by_cases hu : u = t
    · subst hu; rw [t5, h]; rfl
    · rw [t4 u hu]; exact h
  · by_cases hu : u = t
    · subst hu; rw [t6]; exact Nat.le_refl _
    · rw [t4 u hu]; exact Nat.le_refl _

theorem com_load {m m' : Mem Loc Acc} {o : Ord} {t ts v : Nat} {l : Loc} {w : What}
    (h : m.load conf o t l ts ⟨t, w⟩ = some (v, m')) : Com m m' t w := by
  obtain ⟨g, t1, t2, t3, t4, t5, t6, t7, t8, t9⟩ := load_spec h
  refine ⟨logged_snoc t5, logged_lt m, fun u k hk => ?_, by rw [t8]; simp, fun u x => ?_, t6⟩
  · by_cases hu : u = t
    · subst hu; rw [t8, hk]; rfl
    · rw [t7 u hu]; exact hk
  · by_cases hu : u = t
    · rw [hu, t9]; split
      · rename_i hx; subst hx; omega
      · omega
    · rw [t7 u hu]; exact Nat.le_refl _

theorem com_store {m m' : Mem Loc Acc} {o : Ord} {t ts v : Nat} {l : Loc} {w : What}
    (h : m.store conf o t l ts v ⟨t, w⟩ = some m') : Com m m' t w := by
  obtain ⟨t1, t2, t3, t4, t5, t6, t7, t8, -⟩ := store_spec h
  refine ⟨logged_snoc t3, logged_lt m, fun u k hk => ?_, by rw [t6]; simp, fun u x => ?_, t4⟩
  · by_cases hu : u = t
    · subst hu; rw [t6, hk]; rfl
    · rw [t5 u hu]; exact hk
  · by_cases hu : u = t
    · subst hu; rw [t7]; split
      · rename_i hx; subst hx; omega
      · omega
    · rw [t5 u hu]; exact Nat.le_refl _

theorem com_rmw {m m' : Mem Loc Acc} {o : Ord} {t ts v : Nat} {l : Loc} {f : Nat → Nat} {w : What}
    (h : m.rmw conf o t l ts f ⟨t, w⟩ = some (v, m')) : Com m m' t w := by
  obtain ⟨g, t1, t2, t3, t4, t5, t6, t7, t8, t9, -⟩ := rmw_spec h
  refine ⟨logged_snoc t5, logged_lt m, fun u k hk => ?_, by rw [t8]; simp, fun u x => ?_, t6⟩
  · by_cases hu : u = t
    · subst hu; rw [t8, hk]; rfl
    · rw [t7 u hu]; exact hk
  · by_cases hu : u = t
    · rw [hu, t9]; split
      · rename_i hx; subst hx; omega
      · omega
    · rw [t7 u hu]; exact Nat.le_refl _

end Verif.WmStop
