import Verif.WmStop.Ctl
import Verif.WmStop.Log
import Verif.WmStop.Mem
import Verif.WmStop.Know
import Verif.WmStop.Dest
import Verif.WmStop.User
import Verif.WmStop.Race
/-!
# Stop callbacks under the C++ memory model — theorems (C94)
-/
namespace Verif.WmStop

open Verif.WM

structure Inv (c : Cfg) (s : St) : Prop where
  noRace : s.m.race = false
  p : P c s.ctl
  m : M s.ctl s.m s.ks
  e : E c s.ctl s.m.logged
  k : K s.ctl s.m s.ks
  d : D c s.ctl s.m
  u : U c s.ctl s.m
  hb : ∀ j k a b, s.m.logged j a → s.m.logged k b → j < k → conf a b = true → (s.m.cur b.who).know j = true
  urLast : ∀ j k a b, s.m.logged j a → s.m.logged k b → a.what = .uw → b.what = .ur → j ≤ k
  first : ∀ j k a b i, s.m.logged j a → s.m.logged k b → a.what = .make i → b.what.on i = true → j ≤ k

/-- The orders that suffice. -/
structure Good (c : Cfg) : Prop where
  T : c.ordT = .ar
  K : c.ordK.isAcq = true
  U : c.ordU.isRel = true
  D : c.ordD.isRel = true
  W : c.ordW.isAcq = true
  O : c.ordO.isAcq = true
  P : c.ordP.isAcq = true ∨ ∀ i, c.reads i = false

theorem tr_uw {c : Cfg} {x y : Ctl} {t : Nat} {κ : Kind} (tr : Tr c x y t .uw κ) : x.r = .idle := by cases tr; assumption

theorem tr_make {c : Cfg} {x y : Ctl} {t i : Nat} {κ : Kind} (tr : Tr c x y t (.make i) κ) : x.pc i = .idle := by cases tr; assumption

/-- A control step with its memory effect preserves the invariant. -/
theorem inv_of {c : Cfg} {s s' : St} {t : Nat} {w : What} {κ : Kind} (hg : Good c) (h : Inv c s) (tr : Tr c s.ctl s'.ctl t w κ)
    (hc : Com s.m s'.m t w) (hk : MemK c s.m s'.m s.ks s'.ks t κ) : Inv c s' where
  noRace := by rw [hc.race, h.noRace, race_step tr h.p h.e h.k h.d h.u]; rfl
  p := P_step tr h.p
  m := M_step tr h.p hc hk h.m
  e := E_step tr h.p hc.log hc.lt h.e
  k := K_step tr hg.T hg.K hg.U h.p h.e hc hk h.k
  d := D_step tr hg.D hg.W h.p h.e h.k hc hk h.d
  u := U_step tr hg.T hg.K hg.U hg.O hg.P h.p h.m h.e h.k hc hk h.u
  hb := by
    have hq := race_step tr h.p h.e h.k h.d h.u
    rw [racy_false] at hq
    intro j k a b h1 h2 h3 h4
    rcases (hc.log j a).1 h1 with h1 | ⟨h1, h5⟩ <;> rcases (hc.log k b).1 h2 with h2 | ⟨h2, h6⟩
    · exact hc.mono _ _ (h.hb j k a b h1 h2 h3 h4)
    · subst h6; exact hc.mono _ _ (hq j a h1 h4)
    · have := hc.lt k b h2; omega
    · omega
  urLast := by
    intro j k a b h1 h2 h3 h4
    rcases (hc.log j a).1 h1 with h1 | ⟨h1, h5⟩ <;> rcases (hc.log k b).1 h2 with h2 | ⟨h2, h6⟩
    · exact h.urLast j k a b h1 h2 h3 h4
    · have := hc.lt j a h1; omega
    · subst h5
      cases h3
      exact absurd h4 (h.e.uwI (tr_uw tr) k b h2).2
    · omega
  first := by
    intro j k a b i h1 h2 h3 h4
    rcases (hc.log j a).1 h1 with h1 | ⟨h1, h5⟩ <;> rcases (hc.log k b).1 h2 with h2 | ⟨h2, h6⟩
    · exact h.first j k a b i h1 h2 h3 h4
    · have := hc.lt j a h1; omega
    · subst h5
      cases h3
      have := h.e.idleO _ k b (.inl (tr_make tr)) h2
      rw [h4] at this; cases this
    · omega

theorem inv_init (c : Cfg) : Inv c init := by
  constructor <;> (try constructor) <;>
    simp (config := { contextual := true }) [init, St.ctl, Mem.init, Mem.logged, holdsO, holdsR, old, hand, knows, selfR, pers]
  · intro j hj; omega
/-- Plain accesses. -/
theorem plain_ok (c : Cfg) (s : St) (t : Nat) (w : What) : MemK c s.m (s.m.touch conf t ⟨t, w⟩) s.ks s.ks t .plain :=
  ⟨rfl, fun _ _ => rfl⟩

/-- Locking. -/
theorem lock_ok {c : Cfg} {s s' : St} {o : Ord} {t ts : Nat} {ok : Nat → Bool} {f : Nat → Nat} {k : Nat → St → St} (h : Inv c s)
    (hok : ∀ v, ok v = true → v < 2) (hs : lock s o t ts ok f k = some s') :
    ∃ v m', ok v = true ∧ s' = k v { s with m := m', ks := s.ks + 1, holder := some t } ∧ s.holder = none ∧ Com s.m m' t .atom ∧
      MemK c s.m m' s.ks (s.ks + 1) t (.lock o v (f v)) := by
  unfold lock at hs
  cases hr : s.m.rmw conf o t .state ts f ⟨t, .atom⟩ with
  | none => rw [hr] at hs; cases hs
  | some r =>
    obtain ⟨v, m'⟩ := r
    rw [hr] at hs
    simp only [Option.bind_some] at hs
    split at hs
    · rename_i hv
      have hv2 := hok v hv
      simp only [Option.some.injEq] at hs
      have hcom := com_rmw hr
      obtain ⟨g, t1, t2, t3, t4, t5, t6, t7, t8, t9, t10, g', t11, t12, t13, t14⟩ := rmw_spec hr
      obtain ⟨m1, m2, m3, m4, m5, m6, m7, m8⟩ := h.m
      have hts : ts = s.ks := by
        rcases Nat.lt_trichotomy ts s.ks with hl | hl | hl
        · exact absurd t4 (m3 ts g hl t1 (by omega))
        · exact hl
        · rw [m2 ts hl] at t1; cases t1
      subst hts
      refine ⟨v, m', hv, hs.symm, ?_, hcom, rfl, t10, t4, ?_, g, g', t1, t11, t2.symm, by rw [t12, t2], ?_, ?_, ?_⟩
      · cases hh : s.holder with
        | none => rfl
        | some u =>
          exfalso
          by_cases hu : u = 0
          · subst hu
            have := m7 g t1 (h.p.holder0 hh)
            omega
          · have := m6 u g t1 (h.p.holderO u hh hu)
            omega
      · rw [t9]; simp; omega
      · intro ho k hk; rw [t8, ho, hk]; simp
      · intro k hk; rw [t13, hk]; simp
      · intro ho k hk; rw [t13, ho, hk]; simp
    · cases hs

/-- Unlocking. -/
theorem unlock_ok {c : Cfg} {s s' : St} {t ts v : Nat} {k : St → St} (h : Inv c s) (hh : s.holder = some t)
    (hs : unlock s c.ordU t ts v k = some s') :
    ∃ m', s' = k { s with m := m', ks := ts, holder := none } ∧ Com s.m m' t .atom ∧ MemK c s.m m' s.ks ts t (.unlock v) := by
  unfold unlock at hs
  cases hr : s.m.store conf c.ordU t .state ts v ⟨t, .atom⟩ with
  | none => rw [hr] at hs; cases hs
  | some m' =>
    rw [hr] at hs
    simp only [Option.map_some, Option.some.injEq] at hs
    have hcom := com_store hr
    obtain ⟨t1, t2, t3, t4, t5, t6, t7, t8, g', t9, t10, t11, t12⟩ := store_spec hr
    have := h.m.seen t hh
    refine ⟨m', hs.symm, hcom, by omega, t8, g', t9, t10, ?_⟩
    intro ho k hk; rw [t11, ho, hk]; rfl

/-- Loading the state. -/
theorem ld_ok {c : Cfg} {s : St} {o : Ord} {t ts v : Nat} {m' : Mem Loc Acc} (hs : s.m.load conf o t .state ts ⟨t, .atom⟩ = some (v, m')) :
    Com s.m m' t .atom ∧ MemK c s.m m' s.ks s.ks t (.ld o v) := by
  have hcom := com_load hs
  obtain ⟨g, t1, t2, t3, t4, t5, t6, t7, t8, t9⟩ := load_spec hs
  refine ⟨hcom, rfl, fun l j => by rw [t4], ts, g, t1, t2.symm, ?_⟩
  intro ho k hk; rw [t8, ho, hk]; simp

theorem stepR_ok {c : Cfg} {s s' : St} {ts : Nat} (hg : Good c) (h : Inv c s) (hs : stepR c s ts = some s') : Inv c s' := by
  have two : ∀ v, (decide (v < 2)) = true → v < 2 := fun v => of_decide_eq_true
  have zer : ∀ v, (v == 0) = true → v < 2 := fun v hv => by have := eq_of_beq hv; omega
  cases hr : s.r with
  | idle =>
    simp only [stepR, hr, Option.some.injEq] at hs; subst hs
    exact inv_of hg h (.uw hr) (com_touch _ _ _) (plain_ok c s _ _)
  | req =>
    simp only [stepR, hr] at hs
    obtain ⟨v, m', hv, rfl, hn, hc, hk⟩ := lock_ok h zer hs
    have hv := eq_of_beq hv; subst hv
    exact inv_of hg h (.req hr hn) hc hk
  | note =>
    simp only [stepR, hr, Option.some.injEq] at hs; subst hs
    exact inv_of hg h (.note hr) (com_touch _ _ _) (plain_ok c s _ _)
  | loop =>
    simp only [stepR, hr] at hs
    split at hs <;> rename_i hl <;> simp only [Option.some.injEq] at hs <;> subst hs
    · exact inv_of hg h (.loop0 hr hl) (com_touch _ _ _) (plain_ok c s _ _)
    · exact inv_of hg h (.pop _ _ hr hl) (com_touch _ _ _) (plain_ok c s _ _)
  | rel i =>
    simp only [stepR, hr] at hs
    obtain ⟨m', rfl, hc, hk⟩ := unlock_ok h (h.p.holdR (by simp [St.ctl, hr, holdsR])) hs
    exact inv_of hg h (.rel i hr) hc hk
  | call i =>
    simp only [stepR, hr, Option.some.injEq] at hs; subst hs
    by_cases hself : c.self i = true
    · simp only [hself, if_true]
      exact inv_of hg h (.callS i hr hself) (com_touch _ _ _) (plain_ok c s _ _)
    · simp only [hself]
      exact inv_of hg h (.callD i hr (by simpa using hself)) (com_touch _ _ _) (plain_ok c s _ _)
  | dn i =>
    simp only [stepR, hr] at hs
    cases hm : s.m.store conf c.ordD 0 (.done i) ts 1 ⟨0, .flag i⟩ with
    | none => rw [hm] at hs; cases hs
    | some m' =>
      rw [hm] at hs
      simp only [Option.map_some, Option.some.injEq] at hs; subst hs
      have hcom := com_store hm
      obtain ⟨t1, t2, t3, t4, t5, t6, t7, t8, g', t9, t10, t11, t12⟩ := store_spec hm
      refine inv_of hg h (.dn i hr) hcom ⟨rfl, ts, g', t8, t9, t10, ?_⟩
      intro ho k hk; rw [t11, ho, hk]; rfl
  | sl i =>
    simp only [stepR, hr] at hs
    obtain ⟨v, m', hv, rfl, hn, hc, hk⟩ := lock_ok h two hs
    exact inv_of hg h (.sl i v hr hn (two v hv)) hc hk
  | sc i =>
    simp only [stepR, hr, Option.some.injEq] at hs; subst hs
    exact inv_of hg h (.sc i hr) (com_touch _ _ _) (plain_ok c s _ _)
  | su i =>
    simp only [stepR, hr] at hs
    obtain ⟨m', rfl, hc, hk⟩ := unlock_ok h (h.p.holdR (by simp [St.ctl, hr, holdsR])) hs
    exact inv_of hg h (.su i hr) hc hk
  | sf i =>
    simp only [stepR, hr, Option.some.injEq] at hs; subst hs
    exact inv_of hg h (.sf i hr) (com_touch _ _ _) (plain_ok c s _ _)
  | relock =>
    simp only [stepR, hr] at hs
    obtain ⟨v, m', hv, rfl, hn, hc, hk⟩ := lock_ok h two hs
    exact inv_of hg h (.relock v hr hn (two v hv)) hc hk
  | relF =>
    simp only [stepR, hr] at hs
    obtain ⟨m', rfl, hc, hk⟩ := unlock_ok h (h.p.holdR (by simp [St.ctl, hr, holdsR])) hs
    exact inv_of hg h (.relF hr) hc hk
  | fin => simp only [stepR, hr] at hs; cases hs

theorem stepO_ok {c : Cfg} {s s' : St} {i ts : Nat} (hg : Good c) (h : Inv c s) (hi : i ≠ 0) (hs : stepO c s i ts = some s') :
    Inv c s' := by
  have two : ∀ v, (decide (v < 2)) = true → v < 2 := fun v => of_decide_eq_true
  have zer : ∀ v, (v == 0) = true → v < 2 := fun v hv => by have := eq_of_beq hv; omega
  cases hp : s.pc i with
  | idle =>
    simp only [stepO, hp, Option.some.injEq] at hs; subst hs
    exact inv_of hg h (.make i hi hp) (com_touch _ _ _) (plain_ok c s _ _)
  | reg =>
    simp only [stepO, hp] at hs
    obtain ⟨v, m', hv, rfl, hn, hc, hk⟩ := lock_ok h zer hs
    have hv := eq_of_beq hv; subst hv
    exact inv_of hg h (.reg i hi hp hn) hc hk
  | crit =>
    simp only [stepO, hp, Option.some.injEq] at hs; subst hs
    exact inv_of hg h (.push i hi hp) (com_touch _ _ _) (plain_ok c s _ _)
  | unl0 =>
    simp only [stepO, hp] at hs
    obtain ⟨m', rfl, hc, hk⟩ := unlock_ok h (h.p.holdO i (by simp [St.ctl, hp, holdsO])) hs
    exact inv_of hg h (.unl0 i hi hp) hc hk
  | regd =>
    simp only [stepO, hp] at hs
    split at hs
    · cases hs
    · rename_i hself
      obtain ⟨v, m', hv, rfl, hn, hc, hk⟩ := lock_ok h two hs
      exact inv_of hg h (.regd i v hi hp hn (two v hv) (by simpa using hself)) hc hk
  | critR o =>
    simp only [stepO, hp, Option.some.injEq] at hs; subst hs
    by_cases hin : i ∈ s.list
    · simp only [hin, if_true]
      exact inv_of hg h (.remF i o hi hp hin) (com_touch _ _ _) (plain_ok c s _ _)
    · simp only [hin, if_false, List.erase_of_not_mem hin]
      exact inv_of hg h (.remW i o hi hp hin) (com_touch _ _ _) (plain_ok c s _ _)
  | unlF o =>
    simp only [stepO, hp] at hs
    obtain ⟨m', rfl, hc, hk⟩ := unlock_ok h (h.p.holdO i (by simp [St.ctl, hp, holdsO])) hs
    exact inv_of hg h (.unlF i o hi hp) hc hk
  | unlW o =>
    simp only [stepO, hp] at hs
    obtain ⟨m', rfl, hc, hk⟩ := unlock_ok h (h.p.holdO i (by simp [St.ctl, hp, holdsO])) hs
    exact inv_of hg h (.unlW i o hi hp) hc hk
  | wait =>
    simp only [stepO, hp] at hs
    cases hm : s.m.load conf c.ordW i (.done i) ts ⟨i, .flag i⟩ with
    | none => rw [hm] at hs; cases hs
    | some r =>
      obtain ⟨v, m'⟩ := r
      rw [hm] at hs
      simp only [Option.map_some, Option.some.injEq] at hs; subst hs
      have hcom := com_load hm
      obtain ⟨g, t1, t2, t3, t4, t5, t6, t7, t8, t9⟩ := load_spec hm
      have hk : MemK c s.m m' s.ks s.ks i (.dl i v) := by
        refine ⟨rfl, fun l j => by rw [t4], ts, g, t1, t2.symm, ?_⟩
        intro ho k hk; rw [t8, ho, hk]; simp
      by_cases hv : v = 0
      · subst hv
        have : upd s.pc i PC.wait = s.pc := by
          funext j; by_cases hj : j = i
          · subst hj; simp [hp]
          · rw [upd_other _ _ hj]
        simp only [if_true, this]
        exact inv_of hg h (.wait0 i hi hp) hcom hk
      · simp only [hv, if_false]
        have hv' : g.val ≠ 0 := fun hx => hv (by rw [t2, hx])
        exact inv_of hg h (.wait1 i v hi hp hv (h.d.done2 i ts g t1 hv') (h.d.done2h i ts g t1 hv')) hcom hk
  | inl =>
    simp only [stepO, hp, Option.some.injEq] at hs; subst hs
    by_cases hr : c.reads i = true
    · simp only [hr, if_true]
      exact inv_of hg h (.inl i hi hp hr) (com_touch _ _ _) (plain_ok c s _ _)
    · simp only [hr]
      exact inv_of hg h (.inlN i hi hp (by simpa using hr)) (com_touch _ _ _) (plain_ok c s _ _)
  | inl2 =>
    simp only [stepO, hp, Option.some.injEq] at hs; subst hs
    exact inv_of hg h (.inl2 i hi hp) (com_touch _ _ _) (plain_ok c s _ _)
  | fr =>
    simp only [stepO, hp, Option.some.injEq] at hs; subst hs
    exact inv_of hg h (.fr i hi hp) (com_touch _ _ _) (plain_ok c s _ _)
  | saw =>
    simp only [stepO, hp, Option.some.injEq] at hs; subst hs
    exact inv_of hg h (.saw i hi hp) (com_touch _ _ _) (plain_ok c s _ _)
  | fin => simp only [stepO, hp] at hs; cases hs

theorem stepP_ok {c : Cfg} {s s' : St} {t ts : Nat} (hg : Good c) (h : Inv c s) (hs : stepP c s t ts = some s') : Inv c s' := by
  have odd : ∀ {g : Msg Loc}, s.m.hist .state ts = some g → g.val % 2 = 1 → s.ctl.r ≠ .idle := fun hg ho hr => by
    have := h.m.uwE (.inl hr) ts _ hg; omega
  unfold stepP at hs
  split at hs
  · rename_i ht; subst ht
    cases hm : s.m.load conf .rlx 0 .state ts ⟨0, .atom⟩ with
    | none => rw [hm] at hs; cases hs
    | some r =>
      obtain ⟨v, m'⟩ := r
      rw [hm] at hs
      simp only [Option.map_some, Option.some.injEq] at hs; subst hs
      obtain ⟨hc, hk⟩ := ld_ok (c := c) hm
      exact inv_of hg h (.spin 0 v .rlx) hc hk
  · rename_i ht
    split at hs
    · rename_i hp
      cases hm : s.m.load conf c.ordO t .state ts ⟨t, .atom⟩ with
      | none => rw [hm] at hs; cases hs
      | some r =>
        obtain ⟨v, m'⟩ := r
        rw [hm] at hs
        simp only [Option.map_some, Option.some.injEq] at hs; subst hs
        obtain ⟨hc, hk⟩ := ld_ok (c := c) hm
        obtain ⟨g, t1, t2, -⟩ := load_spec hm
        by_cases hv : v % 2 = 1
        · simp only [hv, if_true]
          exact inv_of hg h (.see t v ht hp hv (odd t1 (by rw [← t2]; exact hv))) hc hk
        · simp only [hv, if_false]
          exact inv_of hg h (.spin t v c.ordO) hc hk
    · rename_i hp
      cases hm : s.m.load conf c.ordP t .state ts ⟨t, .atom⟩ with
      | none => rw [hm] at hs; cases hs
      | some r =>
        obtain ⟨v, m'⟩ := r
        rw [hm] at hs
        simp only [Option.map_some, Option.some.injEq] at hs; subst hs
        obtain ⟨hc, hk⟩ := ld_ok (c := c) hm
        obtain ⟨g, t1, t2, -⟩ := load_spec hm
        by_cases hv : v % 2 = 1
        · simp only [hv, if_true]
          exact inv_of hg h (.give t v ht hp hv (odd t1 (by rw [← t2]; exact hv))) hc hk
        · simp only [hv, if_false]
          exact inv_of hg h (.spin t v c.ordP) hc hk
    · cases hm : s.m.load conf .rlx t .state ts ⟨t, .atom⟩ with
      | none => rw [hm] at hs; cases hs
      | some r =>
        obtain ⟨v, m'⟩ := r
        rw [hm] at hs
        simp only [Option.map_some, Option.some.injEq] at hs; subst hs
        obtain ⟨hc, hk⟩ := ld_ok (c := c) hm
        exact inv_of hg h (.spin t v .rlx) hc hk
    · cases hs

theorem inv_reach {c : Cfg} (hg : Good c) {s : St} (h : Reachable c s) : Inv c s :=
  Reach.inv (Inv c) (inv_init c) (fun s a s' hi he => by
    cases a with
    | go t ts =>
      simp only [step] at he
      split at he
      · exact stepR_ok hg hi he
      · rename_i ht; exact stepO_ok hg hi ht he
    | peek t ts => exact stepP_ok hg hi he) s h

/-- The orders of the code suffice if the functions of callbacks do not look at what was written before stop was requested. -/
theorem good_code (self : Nat → Bool) : Good (code self fun _ => false) := ⟨rfl, rfl, rfl, rfl, rfl, rfl, .inr fun _ => rfl⟩

/-- **C94**: under the C++ memory model no two accesses to callbacks, the list of callbacks or the data that the requester wrote
before it requested stop race, if the load that makes a constructor execute its callback inline is an acquire load (or if the
functions of callbacks do not look at those data)… -/
theorem C94_no_race {c : Cfg} (hg : Good c) {s : St} (h : Reachable c s) : s.m.race = false := (inv_reach hg h).noRace

/-- **C94**: the code: that load is relaxed, so only if no callback looks at what was written before stop was requested. -/
theorem C94_no_race_partial {self : Nat → Bool} {s : St} (h : Reachable (code self fun _ => false) s) : s.m.race = false :=
  C94_no_race (good_code self) h

/-- **C94**: …a callback is not accessed after its destruction… -/
theorem C94_no_uaf {c : Cfg} (hg : Good c) {s : St} (h : Reachable c s) (j k i : Nat) (a b : Acc) (hj : s.m.log[j]? = some a)
    (hk : s.m.log[k]? = some b) (ha : a.what = .free i) (hb : b.what.on i = true) : k ≤ j :=
  (inv_reach hg h).e.freeLast j k a b i hj hk ha hb

/-- **C94**: …a callback is executed at most once… -/
theorem C94_once {c : Cfg} (hg : Good c) {s : St} (h : Reachable c s) (j k i : Nat) (a b : Acc) (hj : s.m.log[j]? = some a)
    (hk : s.m.log[k]? = some b) (ha : a.what = .run i) (hb : b.what = .run i) : j = k :=
  (inv_reach hg h).e.run1 j k a b i hj hk ha hb

/-- **C94**: …its construction happens before its execution: it comes first, and who executes the callback knows it… -/
theorem C94_registration {c : Cfg} (hg : Good c) {s : St} (h : Reachable c s) (j k i : Nat) (a b : Acc) (hj : s.m.log[j]? = some a)
    (hk : s.m.log[k]? = some b) (ha : a.what = .make i) (hb : b.what = .run i) : j < k ∧ (s.m.cur b.who).know j = true := by
  have hi := inv_reach hg h
  have h1 := hi.first j k a b i hj hk ha (by rw [hb]; simp [What.on])
  have h2 : j < k := by
    rcases Nat.lt_or_eq_of_le h1 with h2 | h2
    · exact h2
    · subst h2; rw [hj] at hk; cases hk; rw [ha] at hb; cases hb
  refine ⟨h2, hi.hb j k a b hj hk h2 ?_⟩
  obtain ⟨wa, a⟩ := a; obtain ⟨wb, b⟩ := b
  simp only at ha hb; subst ha hb; simp [conf, What.on]

/-- **C94**: …its execution happens before its destruction, on whatever threads… -/
theorem C94_deregistration {c : Cfg} (hg : Good c) {s : St} (h : Reachable c s) (j k i : Nat) (a b : Acc)
    (hj : s.m.log[j]? = some a) (hk : s.m.log[k]? = some b) (ha : a.what = .run i) (hb : b.what = .free i) :
    j < k ∧ (s.m.cur b.who).know j = true := by
  have hi := inv_reach hg h
  have h1 := hi.e.freeLast k j b a i hk hj hb (by rw [ha]; simp [What.on])
  have h2 : j < k := by
    rcases Nat.lt_or_eq_of_le h1 with h2 | h2
    · exact h2
    · subst h2; rw [hj] at hk; cases hk; rw [ha] at hb; cases hb
  refine ⟨h2, hi.hb j k a b hj hk h2 ?_⟩
  obtain ⟨wa, a⟩ := a; obtain ⟨wb, b⟩ := b
  simp only at ha hb; subst ha hb; simp [conf, What.life]

/-- **C94**: …and what was written before stop was requested happens before what reads it after seeing the request. -/
theorem C94_request {c : Cfg} (hg : Good c) {s : St} (h : Reachable c s) (j k : Nat) (a b : Acc) (hj : s.m.log[j]? = some a)
    (hk : s.m.log[k]? = some b) (ha : a.what = .uw) (hb : b.what = .ur) : j < k ∧ (s.m.cur b.who).know j = true := by
  have hi := inv_reach hg h
  rcases Nat.lt_trichotomy j k with h2 | h2 | h2
  · refine ⟨h2, hi.hb j k a b hj hk h2 ?_⟩
    obtain ⟨wa, a⟩ := a; obtain ⟨wb, b⟩ := b
    simp only at ha hb; subst ha hb; rfl
  · subst h2; rw [hj] at hk; cases hk; rw [ha] at hb; cases hb
  · exact absurd h2 (by have := hi.urLast j k a b hj hk ha hb; omega)

/-- A schedule in which callback 1 is registered, executed by the requester, and destroyed by its owner. -/
def exRun : List Act :=
  [.go 1 0, .go 1 0, .go 1 0, .go 1 2, .go 0 0, .go 0 2, .go 0 0, .go 0 0, .go 0 4, .go 0 0, .go 0 1, .go 1 4, .go 1 0, .go 1 6,
   .go 1 1, .go 1 0]

/-- Callback 1 is registered, then callback 2; callback 1 is deregistered. -/
def exReg : List Act :=
  [.go 1 0, .go 1 0, .go 1 0, .go 1 2, .go 2 0, .go 2 2, .go 2 0, .go 2 4, .go 1 4, .go 1 0]

/-- Callback 1 is constructed after stop was requested, and reads what was written before. -/
def exInl : List Act := [.go 0 0, .go 0 0, .go 1 0, .peek 1 1, .go 1 0, .go 1 0, .go 1 0]

/-- Thread 2 sees the request, and reads what was written before. -/
def exSee : List Act := [.go 0 0, .go 0 0, .peek 2 1, .go 2 0]

theorem race_of {c : Cfg} {l : List Act} (h : ((exec (step c) init l).any fun s : St => s.m.race) = true) :
    ∃ s, Reachable c s ∧ s.m.race = true := by
  obtain ⟨s, hs, hr⟩ := Reach.witness (init := init) (step := step c) l (fun s : St => s.m.race) h
  exact ⟨s, hs, hr⟩

/-- **C94**, violated: with the orders of the code, a callback executed by its constructor races with what was written before stop
was requested. -/
theorem C94_inline_violated : ∃ s, Reachable (code (fun _ => false) fun _ => true) s ∧ s.m.race = true :=
  race_of (l := exInl) (by decide +kernel)

/-- **C94**: the other orders are needed: whichever one is weakened, there is a race. -/
theorem C94_orders_needed :
    (∀ o : Ord, o ≠ .ar → ∃ s, Reachable { code (fun _ => false) fun _ => false with ordT := o } s ∧ s.m.race = true) ∧
    (∀ o : Ord, o.isAcq = false → ∃ s, Reachable { code (fun _ => false) fun _ => false with ordK := o } s ∧ s.m.race = true) ∧
    (∀ o : Ord, o.isRel = false → ∃ s, Reachable { code (fun _ => false) fun _ => false with ordU := o } s ∧ s.m.race = true) ∧
    (∀ o : Ord, o.isRel = false → ∃ s, Reachable { code (fun _ => false) fun _ => false with ordD := o } s ∧ s.m.race = true) ∧
    (∀ o : Ord, o.isAcq = false → ∃ s, Reachable { code (fun _ => false) fun _ => false with ordW := o } s ∧ s.m.race = true) ∧
    (∀ o : Ord, o.isAcq = false → ∃ s, Reachable { code (fun _ => false) fun _ => false with ordO := o } s ∧ s.m.race = true) := by
  refine ⟨fun o h => ?_, fun o h => ?_, fun o h => ?_, fun o h => ?_, fun o h => ?_, fun o h => ?_⟩
  · cases o with
    | rlx => exact race_of (l := exReg) (by decide +kernel)
    | rel => exact race_of (l := exReg) (by decide +kernel)
    | acq => exact race_of (l := exSee) (by decide +kernel)
    | ar => exact absurd rfl h
  · cases o with
    | rlx => exact race_of (l := exReg) (by decide +kernel)
    | rel => exact race_of (l := exReg) (by decide +kernel)
    | acq => cases h
    | ar => cases h
  · cases o with
    | rlx => exact race_of (l := exReg) (by decide +kernel)
    | acq => exact race_of (l := exReg) (by decide +kernel)
    | rel => cases h
    | ar => cases h
  · cases o with
    | rlx => exact race_of (l := exRun) (by decide +kernel)
    | acq => exact race_of (l := exRun) (by decide +kernel)
    | rel => cases h
    | ar => cases h
  · cases o with
    | rlx => exact race_of (l := exRun) (by decide +kernel)
    | rel => exact race_of (l := exRun) (by decide +kernel)
    | acq => cases h
    | ar => cases h
  · cases o with
    | rlx => exact race_of (l := exSee) (by decide +kernel)
    | rel => exact race_of (l := exSee) (by decide +kernel)
    | acq => cases h
    | ar => cases h

/-- The code: all of `exRun` can happen: callback 1 is made, executed by thread 0 and destroyed by thread 1, without a race. -/
example : ∃ s, Reachable (code (fun _ => false) fun _ => false) s ∧ s.pc 1 = .fin ∧ s.m.race = false ∧
    (⟨0, .run 1⟩ : Acc) ∈ s.m.log ∧ (⟨1, .free 1⟩ : Acc) ∈ s.m.log := by
  obtain ⟨s, hs, hr⟩ := Reach.witness (init := init) (step := step (code (fun _ => false) fun _ => false)) exRun
    (fun s : St => decide (s.pc 1 = .fin ∧ s.m.race = false ∧ (⟨0, .run 1⟩ : Acc) ∈ s.m.log ∧ (⟨1, .free 1⟩ : Acc) ∈ s.m.log))
    (by decide +kernel)
  exact ⟨s, hs, of_decide_eq_true hr⟩

/-- A callback that destroys itself, and (with an acquire load) one that runs inline and reads the data. -/
example : ∃ s, Reachable { code (fun i => i == 1) fun _ => true with ordP := .acq } s ∧ s.m.race = false ∧
    (⟨0, .free 1⟩ : Acc) ∈ s.m.log ∧ (⟨2, .ur⟩ : Acc) ∈ s.m.log ∧ (⟨0, .uw⟩ : Acc) ∈ s.m.log := by
  obtain ⟨s, hs, hr⟩ := Reach.witness (init := init) (step := step { code (fun i => i == 1) fun _ => true with ordP := .acq })
    [.go 1 0, .go 1 0, .go 1 0, .go 1 2, .go 0 0, .go 0 2, .go 0 0, .go 0 0, .go 0 4, .go 0 0, .go 0 4, .go 0 0, .go 0 6, .go 0 0,
     .go 2 0, .peek 2 6, .go 2 0, .go 2 0]
    (fun s : St => decide (s.m.race = false ∧ (⟨0, .free 1⟩ : Acc) ∈ s.m.log ∧ (⟨2, .ur⟩ : Acc) ∈ s.m.log ∧
      (⟨0, .uw⟩ : Acc) ∈ s.m.log))
    (by decide +kernel)
  exact ⟨s, hs, of_decide_eq_true hr⟩

end Verif.WmStop
