import Verif.WmRefs.Model
import Verif.WM.Lemmas
/-!
# Counting references under the C++ memory model — theorems (C93)
-/
namespace Verif.WmRefs

open Verif.WM

structure Inv (s : St) : Prop where
  hc1 : ∀ j, j ≤ s.kc → s.m.hist .count j ≠ none
  hc2 : ∀ j, s.kc < j → s.m.hist .count j = none
  cval : ∀ g, s.m.hist .count s.kc = some g → g.val = s.live.length
  liveNd : s.live.Nodup
  livePc : ∀ t, t ∈ s.live ↔ s.pc t = .live
  own : ∀ k a, s.m.logged k a → (s.m.cur a.who).know k = true
  rel : ∀ g k a, s.m.hist .count s.kc = some g → s.m.logged k a → s.pc a.who = .gone → g.view.know k = true
  ran : ∀ k a, s.m.logged k a → s.pc a.who ≠ .none
  last1 : ∀ t, s.pc t = .last ∨ s.pc t = .fin → s.live = []
  last2 : ∀ t u, s.pc t = .last ∨ s.pc t = .fin → s.pc u = .last ∨ s.pc u = .fin → t = u
  know : ∀ t k a, s.pc t = .last ∨ s.pc t = .fin → s.m.logged k a → (s.m.cur t).know k = true
  noRace : s.m.race = false
  free : ∀ k a, s.m.logged k a → a.free = true → s.pc a.who = .fin
  freeLast : ∀ j k a b, s.m.logged j a → s.m.logged k b → a.free = true → k ≤ j
  free1 : ∀ j k a b, s.m.logged j a → s.m.logged k b → a.free = true → b.free = true → j = k

theorem inv_init (c : Cfg) : Inv (init c) := by
  constructor <;> simp (config := { contextual := true }) [init, Mem.init, Mem.logged, List.nodup_range]
  · intro j hj; omega
  · intro t u; split at u <;> simp at u
  · intro t u h; split at h <;> simp at h

theorem erase_nil {l : List Nat} {t : Nat} (h : l.length = 1) (ht : t ∈ l) : l.erase t = [] := by
  match l, h with
  | [a], _ => simp at ht; subst ht; simp

/-- Without a last owner nobody has destroyed the object, so that a use does not race. -/
theorem quiet {s : St} {t : Nat} (h : Inv s) (ht : s.pc t = .live) : s.m.racy conf t ⟨t, false⟩ = false := by
  rw [racy_false]
  intro k b hk hc
  simp only [conf, Bool.or_false] at hc
  have h1 := h.free k b hk hc
  have := h.last1 _ (.inr h1)
  rw [← h.livePc, this] at ht
  cases ht

theorem inv_use {s : St} {t : Nat} (h : Inv s) (ht : s.pc t = .live) :
    Inv { s with m := s.m.touch conf t ⟨t, false⟩ } := by
  have hq := quiet h ht
  obtain ⟨t1, t2, t3, t4, t5, t6⟩ := touch_spec conf s.m t ⟨t, false⟩
  have hlog := fun k b => logged_snoc t2 k b
  obtain ⟨g1, g2, g3, g4, g5, g6, g7, g8, g9, g10, g11, g12, g13, g14, g15⟩ := h
  have hlt := logged_lt s.m
  generalize s.m.touch conf t ⟨t, false⟩ = m' at *
  have hr : m'.race = false := by rw [t3, g12, hq]; rfl
  clear t3 hq
  constructor <;> (try dsimp only) <;> first | assumption | grind | skip

theorem inv_destroy {s : St} {t : Nat} (h : Inv s) (ht : s.pc t = .last) :
    Inv { s with m := s.m.touch conf t ⟨t, true⟩, pc := upd s.pc t .fin } := by
  have hq : s.m.racy conf t ⟨t, true⟩ = false := by
    rw [racy_false]; intro k b hk _; exact h.know t k b (.inl ht) hk
  obtain ⟨t1, t2, t3, t4, t5, t6⟩ := touch_spec conf s.m t ⟨t, true⟩
  have hlog := fun k b => logged_snoc t2 k b
  obtain ⟨g1, g2, g3, g4, g5, g6, g7, g8, g9, g10, g11, g12, g13, g14, g15⟩ := h
  have hlt := logged_lt s.m
  generalize s.m.touch conf t ⟨t, true⟩ = m' at *
  have hr : m'.race = false := by rw [t3, g12, hq]; rfl
  clear t3 hq
  constructor <;> (try dsimp only) <;> first | assumption | grind | skip

set_option maxHeartbeats 4000000 in
theorem inv_clone {s : St} {t u ts v : Nat} {o : Ord} {m' : Mem Loc Acc} (h : Inv s) (ht : s.pc t = .live) (hu : s.pc u = .none)
    (hm : s.m.rmw conf o t .count ts (fun v => v + 1) ⟨t, false⟩ = some (v, m')) :
    Inv { s with m := m'.adopt u (m'.cur t), pc := upd s.pc u .live, live := s.live ++ [u], kc := ts + 1 } := by
  have hq := quiet h ht
  obtain ⟨g, t1, t2, t3, t4, t5, t6, t7, t8, t9, t10, g', t11, t12, t13, t14⟩ := rmw_spec hm
  have hlog := fun k b => logged_snoc t5 k b
  obtain ⟨g1, g2, g3, g4, g5, g6, g7, g8, g9, g10, g11, g12, g13, g14, g15⟩ := h
  have hlt := logged_lt s.m
  have hr : m'.race = false := by rw [t6, g12, hq]; rfl
  have hts : ts = s.kc := by
    have e1 : ts ≤ s.kc := by
      by_cases hle : ts ≤ s.kc
      · exact hle
      · rw [g2 ts (by omega)] at t1; cases t1
    have e2 : ¬ ts + 1 ≤ s.kc := fun hle => g1 _ hle t4
    omega
  subst hts
  have hnu : u ∉ s.live := fun hx => by rw [g5, hu] at hx; cases hx
  have htu : t ≠ u := fun hx => by rw [hx, hu] at ht; cases ht
  have c1 : ∀ w, w ≠ u → (m'.adopt u (m'.cur t)).cur w = m'.cur w := fun w hw => by simp [Mem.adopt, upd_other _ _ hw]
  have c2 : ∀ l j, (m'.adopt u (m'.cur t)).hist l j = m'.hist l j := fun _ _ => rfl
  have c3 : ∀ k a, (m'.adopt u (m'.cur t)).logged k a ↔ m'.logged k a := fun _ _ => Iff.rfl
  have c4 : (m'.adopt u (m'.cur t)).race = m'.race := rfl
  generalize m'.adopt u (m'.cur t) = m2 at *
  have hlive : s.live ≠ [] := fun hx => by rw [← g5, hx] at ht; cases ht
  have hnl : ∀ w, s.pc w ≠ .last ∧ s.pc w ≠ .fin := fun w =>
    ⟨fun hx => hlive (g9 w (.inl hx)), fun hx => hlive (g9 w (.inr hx))⟩
  clear t6 hq hm
  constructor <;> (try dsimp only) <;> first | assumption | grind | skip

set_option maxHeartbeats 4000000 in
theorem inv_drop {s : St} {t ts v : Nat} {o : Ord} {m' : Mem Loc Acc} (h : Inv s) (ht : s.pc t = .live)
    (ho1 : o.isAcq = true) (ho2 : o.isRel = true)
    (hm : s.m.rmw conf o t .count ts (fun v => v - 1) ⟨t, false⟩ = some (v, m')) :
    Inv { s with m := m', pc := upd s.pc t (if v = 1 then .last else .gone), live := s.live.erase t, kc := ts + 1 } := by
  have hq := quiet h ht
  obtain ⟨g, t1, t2, t3, t4, t5, t6, t7, t8, t9, t10, g', t11, t12, t13, t14⟩ := rmw_spec hm
  have hlog := fun k b => logged_snoc t5 k b
  obtain ⟨g1, g2, g3, g4, g5, g6, g7, g8, g9, g10, g11, g12, g13, g14, g15⟩ := h
  have hlt := logged_lt s.m
  have hr : m'.race = false := by rw [t6, g12, hq]; rfl
  have hts : ts = s.kc := by
    have e1 : ts ≤ s.kc := by
      by_cases hle : ts ≤ s.kc
      · exact hle
      · rw [g2 ts (by omega)] at t1; cases t1
    have e2 : ¬ ts + 1 ≤ s.kc := fun hle => g1 _ hle t4
    omega
  subst hts
  have htl : t ∈ s.live := (g5 t).2 ht
  have hlive : s.live ≠ [] := fun hx => by rw [hx] at htl; cases htl
  have hnl : ∀ w, s.pc w ≠ .last ∧ s.pc w ≠ .fin := fun w =>
    ⟨fun hx => hlive (g9 w (.inl hx)), fun hx => hlive (g9 w (.inr hx))⟩
  have hel : (s.live.erase t).length = s.live.length - 1 := List.length_erase_of_mem htl
  have hem : ∀ w, w ∈ s.live.erase t ↔ w ≠ t ∧ w ∈ s.live := fun w => g4.mem_erase_iff
  have hend : (s.live.erase t).Nodup := g4.erase t
  have hcv := g3 g t1
  have hone : v = 1 → s.live.erase t = [] := fun hv => erase_nil (by omega) htl
  have hgone : v = 1 → ∀ w, w ≠ t → s.pc w ≠ .none → s.pc w = .gone := fun hv w hw hn => by
    have h1 : w ∉ s.live := fun hx => by
      have := (hem w).2 ⟨hw, hx⟩; rw [hone hv] at this; cases this
    rw [g5] at h1
    have := hnl w
    cases hx : s.pc w with
    | none => exact absurd hx hn
    | live => exact absurd hx h1
    | gone => rfl
    | last => exact absurd hx this.1
    | fin => exact absurd hx this.2
  clear t6 hq hm
  rw [ho1, ho2] at *
  split
  · constructor <;> (try dsimp only) <;> first | assumption | grind | skip
  · constructor <;> (try dsimp only) <;> first | assumption | grind | skip

theorem inv_step {c : Cfg} (ho : c.ordD = .ar) {s s' : St} {a : Act} (h : Inv s) (hs : step c s a = some s') : Inv s' := by
  cases a with
  | use t => simp only [step] at hs; split at hs <;> cases hs; exact inv_use h (by assumption)
  | destroy t => simp only [step] at hs; split at hs <;> cases hs; exact inv_destroy h (by assumption)
  | clone t u ts =>
    simp only [step] at hs
    split at hs
    · rename_i hc
      cases hr : s.m.rmw conf c.ordI t .count ts (fun v => v + 1) ⟨t, false⟩ with
      | none => simp [hr] at hs
      | some x =>
        simp only [hr, Option.map_some, Option.some.injEq] at hs
        subst hs
        exact inv_clone h hc.1 hc.2 hr
    · cases hs
  | drop t ts =>
    simp only [step] at hs
    split at hs
    · rename_i hc
      cases hr : s.m.rmw conf c.ordD t .count ts (fun v => v - 1) ⟨t, false⟩ with
      | none => simp [hr] at hs
      | some x =>
        simp only [hr, Option.map_some, Option.some.injEq] at hs
        subst hs
        exact inv_drop h hc (by rw [ho]; rfl) (by rw [ho]; rfl) hr
    · cases hs

theorem inv_reach {c : Cfg} (ho : c.ordD = .ar) {s : St} (h : Reachable c s) : Inv s :=
  Reach.inv Inv (inv_init c) (fun _ _ _ hi he => inv_step ho hi he) s h

/-- **C93**: with an acquire-release decrement, whatever the order of the increments, no use of the object — by however many
owners, made in whatever way — races with its destruction. -/
theorem C93_no_race {c : Cfg} (ho : c.ordD = .ar) {s : St} (h : Reachable c s) : s.m.race = false := (inv_reach ho h).noRace

/-- **C93**: …the object is destroyed once… -/
theorem C93_once {c : Cfg} (ho : c.ordD = .ar) {s : St} (h : Reachable c s) (j k : Nat) (a b : Acc)
    (hj : s.m.log[j]? = some a) (hk : s.m.log[k]? = some b) (ha : a.free = true) (hb : b.free = true) : j = k :=
  (inv_reach ho h).free1 j k a b hj hk ha hb

/-- **C93**: …its destruction is the last access to it… -/
theorem C93_last {c : Cfg} (ho : c.ordD = .ar) {s : St} (h : Reachable c s) (j k : Nat) (a b : Acc)
    (hj : s.m.log[j]? = some a) (hk : s.m.log[k]? = some b) (ha : a.free = true) : k ≤ j :=
  (inv_reach ho h).freeLast j k a b hj hk ha

/-- **C93**: …not while anybody owns it… -/
theorem C93_not_early {c : Cfg} (ho : c.ordD = .ar) {s : St} (h : Reachable c s) (a : Acc) (ha : a ∈ s.m.log) (hf : a.free = true) :
    ∀ t, s.pc t ≠ .live := by
  intro t ht
  have hi := inv_reach ho h
  obtain ⟨k, hk⟩ := List.getElem?_of_mem ha
  have h1 := hi.last1 _ (.inr (hi.free k a hk hf))
  have := (hi.livePc t).2 ht
  rw [h1] at this; cases this

/-- **C93**: …and not never: if nobody owns it any more and nothing is left to be done, it has been destroyed. -/
theorem C93_destroyed {c : Cfg} (hn : 1 ≤ c.n) (ho : c.ordD = .ar) {s : St} (h : Reachable c s) (h0 : ∀ t, s.pc t ≠ .live)
    (h1 : ∀ t, step c s (.destroy t) = none) : ∃ a, a ∈ s.m.log ∧ a.free = true := by
  have key : (s.live ≠ []) ∨ (∃ t, s.pc t = .last) ∨ ∃ a, a ∈ s.m.log ∧ a.free = true := by
    refine Reach.inv' (fun s => (s.live ≠ []) ∨ (∃ t, s.pc t = .last) ∨ ∃ a, a ∈ s.m.log ∧ a.free = true) ?_ ?_ s h
    · left; simp [init]; omega
    · intro s a s' hr ih hs
      have hi := inv_reach ho hr
      have hi' := inv_step ho hi hs
      cases a with
      | use t =>
        simp only [step] at hs; split at hs <;> cases hs
        rcases ih with h1 | h1 | ⟨a, h1, h2⟩
        · exact .inl h1
        · exact .inr (.inl h1)
        · exact .inr (.inr ⟨a, by simp [Mem.touch, h1], h2⟩)
      | destroy t =>
        simp only [step] at hs; split at hs <;> cases hs
        exact .inr (.inr ⟨⟨t, true⟩, by simp [Mem.touch], rfl⟩)
      | clone t u ts =>
        simp only [step] at hs
        split at hs
        · cases hr : s.m.rmw conf c.ordI t .count ts (fun v => v + 1) ⟨t, false⟩ with
          | none => simp [hr] at hs
          | some x =>
            simp only [hr, Option.map_some, Option.some.injEq] at hs
            subst hs
            left; simp
        · cases hs
      | drop t ts =>
        simp only [step] at hs
        split at hs
        · rename_i hc
          cases hr : s.m.rmw conf c.ordD t .count ts (fun v => v - 1) ⟨t, false⟩ with
          | none => simp [hr] at hs
          | some x =>
            simp only [hr, Option.map_some, Option.some.injEq] at hs
            obtain ⟨v, m'⟩ := x
            obtain ⟨g, t1, t2, t3, t4, t5, t6, t7, t8, t9, t10, g', t11, t12, t13, t14⟩ := rmw_spec hr
            subst hs
            by_cases hv : v = 1
            · right; left; exact ⟨t, by simp [hv]⟩
            · left
              have hts : ts = s.kc := by
                have e1 : ts ≤ s.kc := by
                  by_cases hle : ts ≤ s.kc
                  · exact hle
                  · rw [hi.hc2 ts (by omega)] at t1; cases t1
                have e2 : ¬ ts + 1 ≤ s.kc := fun hle => hi.hc1 _ hle t4
                omega
              subst hts
              have htl : t ∈ s.live := (hi.livePc t).2 hc
              have hel : (s.live.erase t).length = s.live.length - 1 := List.length_erase_of_mem htl
              have hcv := hi.cval g t1
              have hpos : 0 < s.live.length := List.length_pos_of_mem htl
              intro hx
              rw [show s.live.erase t = [] from hx] at hel
              simp at hel; omega
        · cases hs
  rcases key with h2 | ⟨t, h2⟩ | h2
  · cases hl : s.live with
    | nil => exact absurd hl h2
    | cons a l => exact absurd (((inv_reach ho h).livePc a).1 (by rw [hl]; simp)) (h0 a)
  · have := h1 t; simp [step, h2] at this
  · exact h2

/-- **C93**: the order is needed: with any weaker order of the decrement two owners suffice for a use that races with the
destruction. This is the case of `countdown_` in `schedule_all` and of `ref_count_` and `n_submissions_in_flight_` in
`timed_thread_context`, whose decrements are relaxed. -/
theorem C93_order_needed (o i : Ord) (ho : o ≠ .ar) : ∃ s, Reachable ⟨2, i, o⟩ s ∧ s.m.race = true ∧
    ∀ t, s.pc t ≠ .live := by
  have key : ((exec (step ⟨2, i, o⟩) (init ⟨2, i, o⟩) [.use 0, .drop 0 0, .drop 1 1, .destroy 1]).any
      fun s : St => decide (s.m.race = true ∧ s.live = [] ∧ s.pc 0 = .gone ∧ s.pc 1 = .fin)) = true := by
    cases o with
    | rlx => cases i <;> decide +kernel
    | acq => cases i <;> decide +kernel
    | rel => cases i <;> decide +kernel
    | ar => exact absurd rfl ho
  cases he : exec (step ⟨2, i, o⟩) (init ⟨2, i, o⟩) [.use 0, .drop 0 0, .drop 1 1, .destroy 1] with
  | none => rw [he] at key; simp at key
  | some s =>
    rw [he] at key
    have hp := of_decide_eq_true (by simpa using key : decide _ = true)
    refine ⟨s, Reach.of_exec _ he, hp.1, fun t ht => ?_⟩
    have hpc : s.pc = upd (upd (upd (fun t => if t < 2 then PC.live else .none) 0 .gone) 1 .last) 1 .fin := by
      simp only [exec, step, init] at he
      cases o <;> cases i <;> (first | exact absurd rfl ho | (cases he; rfl))
    rw [hpc] at ht
    by_cases h1 : t = 1
    · subst h1; simp at ht
    · by_cases h2 : t = 0
      · subst h2; simp [upd_other] at ht
      · rw [upd_other _ _ h1, upd_other _ _ h1, upd_other _ _ h2] at ht
        have : ¬ t < 2 := by omega
        simp [this] at ht

/-- Not vacuous: three owners, one of them made by a relaxed increment; the object is destroyed by the one that comes last. -/
example : ∃ s, Reachable ⟨2, .rlx, .ar⟩ s ∧ s.pc 5 = .fin ∧ s.live = [] ∧ s.m.log.length = 8 := by
  have := Reach.witness (init := init ⟨2, .rlx, .ar⟩) (step := step ⟨2, .rlx, .ar⟩)
    [.use 0, .clone 1 5 0, .use 5, .drop 1 1, .use 0, .drop 0 2, .drop 5 3, .destroy 5]
    (fun s : St => decide (s.pc 5 = .fin ∧ s.live = [] ∧ s.m.log.length = 8)) (by decide +kernel)
  obtain ⟨s, hr, hp⟩ := this
  exact ⟨s, hr, of_decide_eq_true hp⟩

end Verif.WmRefs
