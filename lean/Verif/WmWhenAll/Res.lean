import Verif.WmWhenAll.Step
/-!
# `when_all` under the C++ memory model — the results
-/
namespace Verif.WmWhenAll

open Verif.WM

theorem not_over {c : Cfg} {s : St} (h : Inv c s) {t : Nat} (hp : pend c.n s.pc t = true) (u : Nat) : over (s.pc u) = false := by
  cases ho : over (s.pc u) with
  | false => rfl
  | true =>
    have : last (s.pc u) = true := by cases hx : s.pc u <;> simp_all [over, last]
    rw [h.lastAll u t this] at hp; cases hp

theorem not_last {c : Cfg} {s : St} (h : Inv c s) {t : Nat} (hp : pend c.n s.pc t = true) (u : Nat) : last (s.pc u) = false := by
  cases ho : last (s.pc u) with
  | false => rfl
  | true => rw [h.lastAll u t ho] at hp; cases hp

set_option maxHeartbeats 8000000 in
theorem cas_step {c : Cfg} {s s' : St} {t ts : Nat} (h : Inv c s) (r : Res c s) (hn : t ≤ c.n) (hp : pend c.n s.pc t = true)
    (hpc : s.pc t = .cas ∧ t = c.n ∨ s.pc t = .run ∧ t < c.n ∧ c.kind t = .stopped) (hs : cas c s t ts = some s') :
    Inv c s' ∧ Res c s' := by
  have hns : s.pc t ≠ .save := by rcases hpc with ⟨h1, _⟩ | ⟨h1, _⟩ <;> simp [h1]
  have hno := not_over h hp
  have hnl := not_last h hp
  have nosave : ∀ w, s.pc w = .save → s.win = some w := h.save1
  obtain ⟨q1, q2, q3, q4⟩ : (∀ j, j ≤ s.ks → s.m.hist .state j ≠ none) ∧ (∀ j, s.ks < j → s.m.hist .state j = none) ∧
    (∀ t, s.pc t = .error → False) ∧ (∀ t i, s.pc t = .values i → False) :=
    ⟨h.hs1, h.hs2, fun t hx => by have := hnl t; simp [hx, last] at this, fun t i hx => by have := hnl t; simp [hx, last] at this⟩
  simp only [cas] at hs
  split at hs
  · rename_i g hg
    split at hs
    · rename_i hv
      cases hr : s.m.rmw conf c.ordS t .state ts (fun _ => 2) (atom t) with
      | none => simp [hr] at hs
      | some x =>
        obtain ⟨v, m'⟩ := x
        simp only [hr, Option.map_some, Option.some.injEq] at hs
        subst hs
        obtain ⟨hts, hi⟩ := inv_rmwS (p := .arrive) (win := s.win) (stp := some t) h hn hp hns (.inl rfl) (.inl rfl) hr
        refine ⟨hi, ?_⟩
        obtain ⟨g0, t1, t2, t3, t4, t5, t6, t7, t8, t9, t10, g', t11, t12, t13, t14⟩ := rmw_spec hr
        subst hts
        clear hi h hr t13 t14 t8 t9 t5 t6 t7 t3
        obtain ⟨r1, r2, r3, r4, r5, r6, r7, r8, r9, r10, r11, r12, r13, r14, r15, r16, r17⟩ := r
        have e1 : over .arrive = false := rfl
        have e2 : errOf .stopped = none := rfl
        constructor <;> (try dsimp only) <;> first | assumption | grind | skip
    · rename_i hv
      cases hr : s.m.load conf c.ordF t .state ts (atom t) with
      | none => simp [hr] at hs
      | some x =>
        obtain ⟨v, m'⟩ := x
        simp only [hr, Option.map_some, Option.some.injEq] at hs
        subst hs
        have hi := inv_loadS h hn hp hns hr
        refine ⟨hi, ?_⟩
        obtain ⟨g0, t1, t2, t3, t4, t5, t6, t7, t8, t9⟩ := load_spec hr
        have hh : ∀ l j, m'.hist l j = s.m.hist l j := fun l j => by rw [t4]
        clear hi h hr t8 t9 t5 t6 t7 t4
        obtain ⟨r1, r2, r3, r4, r5, r6, r7, r8, r9, r10, r11, r12, r13, r14, r15, r16, r17⟩ := r
        have e1 : over .arrive = false := rfl
        have e2 : errOf .stopped = none := rfl
        constructor <;> (try dsimp only) <;> first | assumption | grind | skip
  · cases hs

set_option maxHeartbeats 8000000 in
theorem complete_step {c : Cfg} {s s' : St} {t ts : Nat} (h : Inv c s) (r : Res c s) (hn : t < c.n) (hpc : s.pc t = .run)
    (hs : complete c s t ts = some s') : Inv c s' ∧ Res c s' := by
  have hp : pend c.n s.pc t = true := by simp [pend, hpc, hn]
  have hno := not_over h hp
  have hnl := not_last h hp
  have nosave : ∀ w, s.pc w = .save → s.win = some w := h.save1
  obtain ⟨q1, q2, q3, q4⟩ : (∀ j, j ≤ s.ks → s.m.hist .state j ≠ none) ∧ (∀ j, s.ks < j → s.m.hist .state j = none) ∧
    (∀ t, s.pc t = .error → False) ∧ (∀ t i, s.pc t = .values i → False) :=
    ⟨h.hs1, h.hs2, fun t hx => by have := hnl t; simp [hx, last] at this, fun t i hx => by have := hnl t; simp [hx, last] at this⟩
  simp only [complete] at hs
  split at hs
  · rename_i v hk
    cases hs
    refine ⟨inv_touch h (.inl ⟨hpc, hn⟩) (.inl rfl), ?_⟩
    obtain ⟨t1, -, -, -, -, -⟩ := touch_spec conf s.m t ⟨t, .value t, .write⟩
    generalize s.m.touch conf t ⟨t, .value t, .write⟩ = m' at *
    have hh : ∀ l j, m'.hist l j = s.m.hist l j := fun l j => by rw [t1]
    clear t1
    obtain ⟨r1, r2, r3, r4, r5, r6, r7, r8, r9, r10, r11, r12, r13, r14, r15, r16, r17⟩ := r
    have e1 : over .arrive = false := rfl
    have e2 : errOf (.value v) = none := rfl
    clear h
    constructor <;> (try dsimp only) <;> first | assumption | grind | skip
  · rename_i e hk
    cases hr : s.m.rmw conf c.ordS t .state ts (fun _ => 1) (atom t) with
    | none => simp [hr] at hs
    | some x =>
      obtain ⟨v, m'⟩ := x
      simp only [hr, Option.map_some, Option.some.injEq] at hs
      subst hs
      obtain ⟨g0, t1, t2, t3, t4, t5, t6, t7, t8, t9, t10, g', t11, t12, t13, t14⟩ := rmw_spec hr
      have hts : ts = s.ks := (inv_rmwS (p := .arrive) (win := s.win) (stp := s.stp) h (by omega) hp (by simp [hpc]) (.inl rfl)
        (.inl rfl) hr).1
      have hw : v ≠ 1 → s.win = none := by
        intro hv
        have := r.sv1 g0 (by rw [← hts]; exact t1)
        cases hx : s.win with
        | none => rfl
        | some w => exact absurd (this.2 (by simp [hx])) (by rw [← t2]; exact hv)
      have hi : Inv c { s with
          m := m', ks := ts + 1, sw := t, pc := upd s.pc t (if v = 1 then .arrive else .save)
          win := if v = 1 then s.win else some t, stp := s.stp } := by
        refine (inv_rmwS h (by omega) hp (by simp [hpc]) ?_ ?_ hr).2
        · by_cases hv : v = 1 <;> simp [hv]
        · by_cases hv : v = 1
          · simp [hv]
          · simp [hv, hw hv]
      refine ⟨hi, ?_⟩
      subst hts
      have hk2 : errOf (c.kind t) = some e := by rw [hk]; rfl
      clear hi h hr t13 t14 t8 t9 t5 t6 t7 t3
      obtain ⟨r1, r2, r3, r4, r5, r6, r7, r8, r9, r10, r11, r12, r13, r14, r15, r16, r17⟩ := r
      have e1 : over .arrive = false := rfl
      have e2 : over .save = false := rfl
      by_cases hv : v = 1
      · simp only [hv, if_true]
        constructor <;> (try dsimp only) <;> first | assumption | grind | skip
      · simp only [hv, if_false]
        constructor <;> (try dsimp only) <;> first | assumption | grind | skip
  · exact cas_step h r (by omega) hp (.inr ⟨hpc, hn, by assumption⟩) hs

end Verif.WmWhenAll
