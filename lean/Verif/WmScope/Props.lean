import Verif.WmScope.StepA
import Verif.WmScope.StepB
/-!
# Counting scopes under the C++ memory model — theorems (C99)
-/
namespace Verif.WmScope

open Verif.WM

theorem over_spec {c : Cfg} {s : St} (h : Inv c s) (ho : over c s = true) : (∀ j, s.jc j ≠ .idle → s.met j = true) ∧ ∃ j, s.met j = true := by
  simp only [over, Bool.and_eq_true, List.all_eq_true, List.any_eq_true, List.mem_range, Bool.or_eq_true, beq_iff_eq, bne_iff_ne] at ho
  have h1 : ∀ j, s.jc j ≠ .idle → s.met j = true := fun j hj => by
    rcases Nat.lt_or_ge j c.k with hl | hl
    · rcases ho.1 j hl with e | e
      · exact absurd e hj
      · exact e
    · exact absurd (h.ctl.jout j hl) hj
  obtain ⟨j, _, hj⟩ := ho.2
  exact ⟨h1, j, h1 j hj⟩

theorem inv_step {c : Cfg} (hc : c.good) {s s' : St} {a : Act} (h : Inv c s) (he : step c s a = some s') : Inv c s' := by
  obtain ⟨g1, g2, g3, g4, g5, g6, g7⟩ := hc
  cases a with
  | close ts =>
    simp only [step] at he
    split at he
    · rename_i hp
      simp only [Option.map_eq_some_iff] at he
      obtain ⟨⟨v, m'⟩, hm, rfl⟩ := he
      exact i_close h hp hm
    · cases he
  | assoc i ts =>
    simp only [step] at he
    split at he
    · rename_i hp
      simp only [Option.bind_eq_some_iff] at he
      obtain ⟨⟨v, m'⟩, hm, he⟩ := he
      split at he
      · rename_i hv; cases he; exact i_assoc h hp.1 hp.2.1 hp.2.2 hv hm
      · cases he
    · cases he
  | work i =>
    simp only [step] at he
    split at he
    · rename_i hp; cases he; exact i_work h hp
    · cases he
  | dis i ts =>
    simp only [step] at he
    split at he
    · rename_i hp
      simp only [Option.map_eq_some_iff] at he
      obtain ⟨⟨v, m'⟩, hm, rfl⟩ := he
      by_cases hv : fDec v = 1
      · simp only [hv, if_true]; exact i_dis1 h g1 g2 hp hv hm
      · simp only [hv, if_false]; exact i_dis0 h g2 hp hv hm
    · cases he
  | deq i ts =>
    simp only [step] at he
    split at he
    · rename_i hp
      simp only [Option.map_eq_some_iff] at he
      obtain ⟨⟨v, m'⟩, hm, rfl⟩ := he
      exact i_deq h g6 g7 hp hm
    · cases he
  | comp i =>
    simp only [step] at he
    split at he
    · rename_i hp
      split at he
      · rename_i ht; cases he; exact i_fin h hp ht
      · rename_i ht; cases he; exact i_comp h hp ht
    · cases he
  | make j =>
    simp only [step] at he
    split at he
    · rename_i hp; cases he; exact i_make h hp.1 hp.2.1 hp.2.2
    · cases he
  | join0 j ts =>
    simp only [step] at he
    split at he
    · rename_i hp
      simp only [Option.bind_eq_some_iff] at he
      obtain ⟨⟨v, m'⟩, hm, he⟩ := he
      split at he
      · rename_i hv; cases he; exact i_join0 h g3 hp hv hm
      · cases he
    · cases he
  | join1 j ts =>
    simp only [step] at he
    split at he
    · rename_i hp
      simp only [Option.bind_eq_some_iff] at he
      obtain ⟨⟨v, m'⟩, hm, he⟩ := he
      split at he
      · rename_i hv; cases he; exact i_join1 h hp hv hm
      · cases he
    · cases he
  | link j =>
    simp only [step] at he
    split at he
    · rename_i hp; cases he; exact i_link h hp
    · cases he
  | closed j ts =>
    simp only [step] at he
    split at he
    · rename_i hp
      simp only [Option.bind_eq_some_iff] at he
      obtain ⟨⟨v, m'⟩, hm, he⟩ := he
      split at he
      · rename_i hv; cases he; exact i_closed h g4 hp hv hm
      · cases he
    · cases he
  | reg j ts =>
    simp only [step] at he
    split at he
    · rename_i hp
      simp only [Option.bind_eq_some_iff] at he
      obtain ⟨⟨v, m'⟩, hm, he⟩ := he
      split at he
      · rename_i hv; cases he; exact i_reg h g5 hp hv hm
      · cases he
    · cases he
  | inl j =>
    simp only [step] at he
    split at he
    · rename_i hp; cases he; exact i_inl h hp
    · cases he
  | meet j =>
    simp only [step] at he
    split at he
    · rename_i hp; cases he; exact i_meet h hp
    · cases he
  | load ts =>
    simp only [step] at he
    split at he
    · rename_i hp
      simp only [Option.map_eq_some_iff] at he
      obtain ⟨⟨v, m'⟩, hm, rfl⟩ := he
      obtain ⟨o1, o2⟩ := over_spec h hp.2
      exact i_load h hp.1 o1 o2 hm
    · cases he
  | destroy =>
    simp only [step] at he
    split at he
    · rename_i hp; cases he; exact i_destroy h hp
    · cases he

theorem inv_reach {c : Cfg} (hc : c.good) {s : St} (h : Reachable c s) : Inv c s :=
  Reach.inv (Inv c) (inv_init c) (fun _ _ _ hi he => inv_step hc hi he) s h

theorem code_good (n k : Nat) : (code n k).good := ⟨rfl, rfl, rfl, rfl, rfl, rfl, rfl⟩

/-- Nothing races: not the completion of a join operation with the thread that started it, and, if the scope is destroyed after all join
operations that were started have completed, its destruction with nothing that any association or join operation did. -/
theorem C99_no_race (c : Cfg) (hc : c.good) (s : St) (h : Reachable c s) : s.m.race = false := (inv_reach hc h).noRace

/-- Nothing touches the scope after that. -/
theorem C99_no_use_after (c : Cfg) (hc : c.good) (s : St) (h : Reachable c s) (x y : Nat) (a b : Acc)
    (ha : s.m.logged x a) (hb : s.m.logged y b) (hd : a.what = .destroy) : y ≤ x :=
  (inv_reach hc h).k.last x y a b ha hb hd

/-- The destructor does not terminate the program. -/
theorem C99_no_terminate (c : Cfg) (hc : c.good) (s : St) (h : Reachable c s) : s.term = false := (inv_reach hc h).v.tm

/-- When a join operation has completed, no association is left, none can be made, and everything that any associated operation did
happened before the completion. -/
theorem C99_join (c : Cfg) (hc : c.good) (s : St) (h : Reachable c s) (j : Nat) (hj : s.jc j = .done) :
    (∀ i, s.st i ≠ .act) ∧ (∀ i ts, step c s (.assoc i ts) = none) ∧
    ∀ x a, s.m.logged x a → a.what = .work → (s.cv j).know x = true := by
  have hi := inv_reach hc h
  have hjd := hi.j.v7 j (Or.inr hj)
  have h0 := hi.ctl.jd hjd
  refine ⟨fun i e => ?_, fun i ts => ?_, fun x a hl hw => ?_⟩
  · have := na_pos hi.ctl e; omega
  · cases hs : step c s (.assoc i ts) with
    | none => rfl
    | some s' =>
      exfalso
      simp only [step] at hs
      split at hs
      · simp only [Option.bind_eq_some_iff] at hs
        obtain ⟨⟨v, m'⟩, hm, hs⟩ := hs
        split at hs
        · rename_i hv
          obtain ⟨g, t1, t2, t3, t4, _⟩ := rmw_spec hm
          have hts : ts = s.kb := by
            rcases Nat.lt_trichotomy ts s.kb with hl | hl | hl
            · exact absurd t4 (hi.v.gb (ts + 1) hl)
            · exact hl
            · rw [hi.v.ab _ hl] at t1; cases t1
          rw [hts] at t1
          dsimp only at hv
          rw [t2, hi.v.vb g t1, enc_mod, h0.2.1] at hv
          simp at hv
        · cases hs
      · cases hs
  · have hodd : a.who % 2 = 1 := by
      rcases Nat.mod_two_eq_zero_or_one a.who with e | e
      · by_cases e0 : a.who = 0
        · rcases hi.k.k13 x a hl e0 with e2 | e2 <;> rw [hw] at e2 <;> cases e2
        · exact absurd hw (hi.k.k15 x a hl e0 e).1
      · exact e
    exact hi.k.k6 x a j hj hl hodd (Or.inr hw)

/-! ### No join operation is lost -/

/-- A join operation that waits has somebody to complete it. -/
structure Lw (s : St) : Prop where
  lw : ∀ j, s.via j = true → s.hc = false → s.jng = true ∨ ∃ i, s.st i = .deq
  lt : s.todo ≠ [] → ∃ i, s.st i = .comp

theorem wf_adopt {m : Mem Loc Acc} (h : m.Wf) {w : View Loc} (hw : ∀ x, m.hist x (w.seen x) ≠ none) : (m.adopt 0 w).Wf := by
  refine ⟨h.zero, fun u x => ?_, h.msg⟩
  by_cases hu : u = 0
  · subst hu
    have e : ((m.adopt 0 w).cur 0).seen x = max ((m.cur 0).seen x) (w.seen x) := by simp [Mem.adopt, upd_same, View.join]
    rw [e]
    exact max_ne (P := fun n => m.hist x n ≠ none) (h.cur 0 x) (hw x)
  · have e : (m.adopt 0 w).cur u = m.cur u := by simp [Mem.adopt, upd_other _ _ hu]
    rw [e]
    exact h.cur u x

/-- Views point to messages that exist, those of completions too. -/
def Wf2 (s : St) : Prop := s.m.Wf ∧ ∀ j x, s.m.hist x ((s.cv j).seen x) ≠ none

theorem rmw_grow {m m' : Mem Loc Acc} {o : Ord} {t ts v : Nat} {l : Loc} {f : Nat → Nat} {a : Acc} (h : m.Wf) {w : Nat → View Loc}
    (hw : ∀ j x, m.hist x ((w j).seen x) ≠ none) (hm : m.rmw conf o t l ts f a = some (v, m')) :
    m'.Wf ∧ ∀ j x, m'.hist x ((w j).seen x) ≠ none := by
  refine ⟨h.rmw hm, fun j x => ?_⟩
  obtain ⟨g, _, _, _, _, _, _, _, _, _, t10, g', t11, _⟩ := rmw_spec hm
  by_cases e : x = l ∧ (w j).seen x = ts + 1
  · rw [e.2, e.1, t11]; simp
  · rw [t10 _ _ e]; exact hw j x

theorem load_grow {m m' : Mem Loc Acc} {o : Ord} {t ts v : Nat} {l : Loc} {a : Acc} (h : m.Wf) {w : Nat → View Loc}
    (hw : ∀ j x, m.hist x ((w j).seen x) ≠ none) (hm : m.load conf o t l ts a = some (v, m')) :
    m'.Wf ∧ ∀ j x, m'.hist x ((w j).seen x) ≠ none := by
  refine ⟨h.load hm, fun j x => ?_⟩
  obtain ⟨g, _, _, _, t4, _⟩ := load_spec hm
  rw [t4]; exact hw j x

theorem complete_wf {s : St} (h : Wf2 s) (t j : Nat) : Wf2 (complete s t j) := by
  refine ⟨h.1.touch _ _, fun l x => ?_⟩
  simp only [complete]
  by_cases e : l = j
  · subst e; rw [upd_same]; exact (h.1.touch (conf := conf) t ⟨t, .op l⟩).cur t x
  · rw [upd_other _ _ e]; exact h.2 l x

theorem wf_step {c : Cfg} {s s' : St} {a : Act} (h : Wf2 s) (he : step c s a = some s') : Wf2 s' := by
  cases a <;> simp only [step] at he <;> repeat' split at he
  all_goals first
    | (cases he; done)
    | (cases he; exact h)
    | (cases he; exact complete_wf h _ _)
    | (cases he; exact ⟨h.1.touch _ _, h.2⟩)
    | (cases he; exact ⟨wf_adopt h.1 (h.2 _), h.2⟩)
    | (simp only [Option.map_eq_some_iff] at he
       obtain ⟨⟨v, m'⟩, hm, rfl⟩ := he
       first
         | exact rmw_grow h.1 h.2 hm
         | exact load_grow h.1 h.2 hm
         | (dsimp only; split <;> exact rmw_grow h.1 h.2 hm))
    | (simp only [Option.bind_eq_some_iff] at he
       obtain ⟨⟨v, m'⟩, hm, he⟩ := he
       split at he
       · cases he
         first
           | exact rmw_grow h.1 h.2 hm
           | exact load_grow h.1 h.2 hm
       · cases he)

theorem lw_step {c : Cfg} {s s' : St} {a : Act} (hi : Inv c s) (h : Lw s) (he : step c s a = some s') : Lw s' := by
  obtain ⟨h1, h2⟩ := h
  have hj := hi.ctl.jd
  have hn := hi.ctl.jn
  have hd := hi.ctl.dq
  have hone := hi.ctl.one
  have hv := hi.j.v1
  have hl2 := hi.j.l2
  cases a with
  | close ts =>
    simp only [step] at he
    split at he
    · simp only [Option.map_eq_some_iff] at he
      obtain ⟨⟨v, m'⟩, hm, rfl⟩ := he
      exact ⟨h1, h2⟩
    · cases he
  | assoc i ts =>
    simp only [step] at he
    split at he
    · rename_i hp
      simp only [Option.bind_eq_some_iff] at he
      obtain ⟨⟨v, m'⟩, hm, he⟩ := he
      split at he
      · cases he
        refine ⟨fun j hj hh => ?_, fun ht => ?_⟩
        · rcases h1 j hj hh with e | ⟨l, e⟩
          · exact Or.inl e
          · exact Or.inr ⟨l, by dsimp only; rw [upd_other _ _ (fun e' => by rw [e', hp.2.1] at e; cases e)]; exact e⟩
        · obtain ⟨l, e⟩ := h2 ht
          exact ⟨l, by dsimp only; rw [upd_other _ _ (fun e' => by rw [e', hp.2.1] at e; cases e)]; exact e⟩
      · cases he
    · cases he
  | work i =>
    simp only [step] at he
    split at he
    · cases he; exact ⟨h1, h2⟩
    · cases he
  | dis i ts =>
    simp only [step] at he
    split at he
    · rename_i hp
      simp only [Option.map_eq_some_iff] at he
      obtain ⟨⟨v, m'⟩, hm, rfl⟩ := he
      by_cases hv : fDec v = 1
      · simp only [hv, if_true]
        refine ⟨fun j hj hh => Or.inr ⟨i, by dsimp only; rw [upd_same]⟩, fun ht => ?_⟩
        obtain ⟨l, e⟩ := h2 ht
        exact ⟨l, by dsimp only; rw [upd_other _ _ (fun e' => by rw [e', hp] at e; cases e)]; exact e⟩
      · simp only [hv, if_false]
        refine ⟨fun j hj hh => ?_, fun ht => ?_⟩
        · rcases h1 j hj hh with e | ⟨l, e⟩
          · exact Or.inl e
          · exact Or.inr ⟨l, by dsimp only; rw [upd_other _ _ (fun e' => by rw [e', hp] at e; cases e)]; exact e⟩
        · obtain ⟨l, e⟩ := h2 ht
          exact ⟨l, by dsimp only; rw [upd_other _ _ (fun e' => by rw [e', hp] at e; cases e)]; exact e⟩
    · cases he
  | deq i ts =>
    simp only [step] at he
    split at he
    · simp only [Option.map_eq_some_iff] at he
      obtain ⟨⟨v, m'⟩, hm, rfl⟩ := he
      refine ⟨fun j hj hh => ?_, fun ht => ⟨i, by dsimp only; rw [upd_same]⟩⟩
      cases hh
    · cases he
  | comp i =>
    simp only [step] at he
    split at he
    · split at he
      · cases he; constructor <;> dsimp only <;> grind
      · rename_i hp _ _ _ _; cases he; exact ⟨h1, fun _ => ⟨i, hp⟩⟩
    · cases he
  | make j =>
    simp only [step] at he
    split at he
    · cases he; exact ⟨h1, h2⟩
    · cases he
  | join0 j ts =>
    simp only [step] at he
    split at he
    · simp only [Option.bind_eq_some_iff] at he
      obtain ⟨⟨v, m'⟩, hm, he⟩ := he
      split at he
      · rename_i hv0
        cases he
        obtain ⟨g, t1, t2, t3, t4, _⟩ := rmw_spec hm
        have hts : ts = s.kb := by
          rcases Nat.lt_trichotomy ts s.kb with hl | hl | hl
          · exact absurd t4 (hi.v.gb (ts + 1) hl)
          · exact hl
          · rw [hi.v.ab _ hl] at t1; cases t1
        rw [hts] at t1
        dsimp only at hv0
        rw [t2, hi.v.vb g t1, enc_div] at hv0
        constructor <;> dsimp only <;> grind
      · cases he
    · cases he
  | join1 j ts =>
    simp only [step] at he
    split at he
    · simp only [Option.bind_eq_some_iff] at he
      obtain ⟨⟨v, m'⟩, hm, he⟩ := he
      split at he
      · cases he; constructor <;> dsimp only <;> grind
      · cases he
    · cases he
  | link j =>
    simp only [step] at he
    split at he
    · cases he; exact ⟨h1, h2⟩
    · cases he
  | closed j ts =>
    simp only [step] at he
    split at he
    · simp only [Option.bind_eq_some_iff] at he
      obtain ⟨⟨v, m'⟩, hm, he⟩ := he
      split at he
      · cases he; exact ⟨h1, h2⟩
      · cases he
    · cases he
  | reg j ts =>
    simp only [step] at he
    split at he
    · simp only [Option.bind_eq_some_iff] at he
      obtain ⟨⟨v, m'⟩, hm, he⟩ := he
      split at he
      · cases he; exact ⟨h1, h2⟩
      · cases he
    · cases he
  | inl j =>
    simp only [step] at he
    split at he
    · cases he; exact ⟨h1, h2⟩
    · cases he
  | meet j =>
    simp only [step] at he
    split at he
    · cases he; exact ⟨h1, h2⟩
    · cases he
  | load ts =>
    simp only [step] at he
    split at he
    · simp only [Option.map_eq_some_iff] at he
      obtain ⟨⟨v, m'⟩, hm, rfl⟩ := he
      exact ⟨h1, h2⟩
    · cases he
  | destroy =>
    simp only [step] at he
    split at he
    · cases he; exact ⟨h1, h2⟩
    · cases he

theorem all_reach {c : Cfg} (hc : c.good) {s : St} (h : Reachable c s) : Inv c s ∧ Lw s ∧ Wf2 s := by
  refine Reach.inv (fun s => Inv c s ∧ Lw s ∧ Wf2 s) ⟨inv_init c, ⟨?_, ?_⟩, Mem.Wf.init _, ?_⟩ ?_ s h
  · intro j hj; simp [init] at hj
  · simp [init]
  · intro j x; simp [init, Mem.init, View.bot]
  · intro s a s' hi he
    exact ⟨inv_step hc hi.1 he, lw_step hi.1 hi.2.1 he, wf_step hi.2.2 he⟩

/-- Sum. -/
def tot (f : Nat → Nat) : Nat → Nat
  | 0 => 0
  | n + 1 => tot f n + f n

theorem tot_le {f g : Nat → Nat} (h : ∀ i, f i ≤ g i) : ∀ n, tot f n ≤ tot g n
  | 0 => Nat.le_refl _
  | n + 1 => Nat.add_le_add (tot_le h n) (h n)

theorem tot_lt {f g : Nat → Nat} (h : ∀ i, f i ≤ g i) {a : Nat} (ha : f a < g a) : ∀ n, a < n → tot f n < tot g n
  | n + 1, hn => by
    have h1 := tot_le h n
    have h2 := h n
    simp only [tot]
    by_cases e : a = n
    · subst e; omega
    · have := tot_lt h ha n (by omega); omega

def wA : AC → Nat
  | .idle => 0 | .act => 3 | .deq => 2 | .comp => 1 | .fin => 0

def wJ : JC → Nat
  | .idle => 0 | .made => 3 | .reg => 2 | .wait => 2 | .inl => 1 | .done => 0

/-- How far the started join operations are from completion. -/
def mu (c : Cfg) (s : St) : Nat := tot (fun i => wA (s.st i)) c.n + tot (fun j => wJ (s.jc j)) c.k

theorem mu_a {c : Cfg} {s s' : St} {i : Nat} {x : AC} (hi : i < c.n) (h1 : s'.st = upd s.st i x) (h2 : s'.jc = s.jc) (hx : wA x < wA (s.st i)) :
    mu c s' < mu c s := by
  have := tot_lt (f := fun i => wA (s'.st i)) (g := fun i => wA (s.st i)) (a := i) (fun l => by
    show wA (s'.st l) ≤ wA (s.st l); rw [h1, upd_apply]; split
    · rename_i e; rw [e]; omega
    · exact Nat.le_refl _) (by show wA (s'.st i) < wA (s.st i); rw [h1, upd_same]; exact hx) c.n hi
  simp only [mu, h2]; omega

theorem mu_j {c : Cfg} {s s' : St} {j : Nat} {x : JC} (hj : j < c.k) (h1 : s'.jc = upd s.jc j x) (h2 : s'.st = s.st) (hx : wJ x < wJ (s.jc j)) :
    mu c s' < mu c s := by
  have := tot_lt (f := fun i => wJ (s'.jc i)) (g := fun i => wJ (s.jc i)) (a := j) (fun l => by
    show wJ (s'.jc l) ≤ wJ (s.jc l); rw [h1, upd_apply]; split
    · rename_i e; rw [e]; omega
    · exact Nat.le_refl _) (by show wJ (s'.jc j) < wJ (s.jc j); rw [h1, upd_same]; exact hx) c.k hj
  simp only [mu, h2]; omega

set_option maxHeartbeats 2000000 in
theorem better {c : Cfg} (hc : c.good) {s : St} (h : Reachable c s) {j : Nat} (h0 : s.jc j ≠ .idle) (h1 : s.jc j ≠ .done) :
    ∃ a s', step c s a = some s' ∧ mu c s' < mu c s := by
  obtain ⟨hi, hl, hw⟩ := all_reach hc h
  obtain ⟨gb, hgb⟩ := Option.ne_none_iff_exists'.mp (hi.v.gb s.kb (Nat.le_refl _))
  obtain ⟨gh, hgh⟩ := Option.ne_none_iff_exists'.mp (hi.v.gh s.kh (Nat.le_refl _))
  have hin : ∀ i, s.st i ≠ .idle → i < c.n := fun i e => by
    rcases Nat.lt_or_ge i c.n with hl | hl
    · exact hl
    · exact absurd (hi.ctl.out i hl) e
  have hjn : j < c.k := by
    rcases Nat.lt_or_ge j c.k with hl | hl
    · exact hl
    · exact absurd (hi.ctl.jout j hl) h0
  by_cases ha : ∃ i, s.st i = .act
  · obtain ⟨i, ha⟩ := ha
    obtain ⟨m', e⟩ := rmw_ok (conf := conf) hw.1 hi.v.ab hgb c.ordD (ta i) fDec ⟨ta i, .bits⟩
    by_cases hv : fDec gb.val = 1
    · exact ⟨.dis i s.kb, { s with m := m', kb := s.kb + 1, cnt := 0, jng := false, need := false, cls := true, jd := true, pJ := s.kb + 1, st := upd s.st i .deq },
        by simp [step, ha, e, hv], mu_a (x := .deq) (hin i (by simp [ha])) rfl rfl (by simp [ha, wA])⟩
    · exact ⟨.dis i s.kb, { s with m := m', kb := s.kb + 1, cnt := s.cnt - 1, st := upd s.st i .fin },
        by simp [step, ha, e, hv], mu_a (x := .fin) (hin i (by simp [ha])) rfl rfl (by simp [ha, wA])⟩
  by_cases hd : ∃ i, s.st i = .deq
  · obtain ⟨i, hd⟩ := hd
    obtain ⟨m', e⟩ := rmw_ok (conf := conf) hw.1 hi.v.ah hgh c.ordQ (ta i) (fun _ => 1) ⟨ta i, .head⟩
    exact ⟨.deq i s.kh, { s with m := m', kh := s.kh + 1, hc := true, lst := [], todo := s.lst, st := upd s.st i .comp },
      by simp [step, hd, e], mu_a (x := .comp) (hin i (by simp [hd])) rfl rfl (by simp [hd, wA])⟩
  by_cases hp : ∃ i, s.st i = .comp
  · obtain ⟨i, hp⟩ := hp
    cases ht : s.todo with
    | nil => exact ⟨.comp i, { s with st := upd s.st i .fin }, by simp [step, hp, ht], mu_a (x := .fin) (hin i (by simp [hp])) rfl rfl (by simp [hp, wA])⟩
    | cons l r =>
      have hw2 := ((hi.j.l2 l).mp (by rw [ht]; simp)).2
      refine ⟨.comp i, { complete s (ta i) l with todo := r }, by simp [step, hp, ht], mu_j (j := l) (x := .done) ?_ rfl rfl (by simp [hw2, wJ])⟩
      rcases Nat.lt_or_ge l c.k with hl | hl
      · exact hl
      · have := hi.ctl.jout l hl; rw [hw2] at this; cases this
  have hc0 : s.cnt = 0 := by
    rw [hi.ctl.num]
    simp only [na]; rw [cnt_zero_iff]
    intro i _
    have : s.st i ≠ .act := fun e => ha ⟨i, e⟩
    simpa using this
  have hcl : s.via j = true → s.hc = true := fun hv => by
    cases hx : s.hc with
    | true => rfl
    | false =>
      rcases hl.lw j hv hx with e | e
      · have := hi.ctl.jn e; omega
      · exact absurd e hd
  cases hjc : s.jc j with
  | idle => exact absurd hjc h0
  | done => exact absurd hjc h1
  | made =>
    obtain ⟨m', e⟩ := rmw_ok (conf := conf) hw.1 hi.v.ab hgb c.ordZ (tj j) (fun _ => 1) ⟨tj j, .bits⟩
    have hv : gb.val / 8 = 0 := by rw [hi.v.vb gb hgb, enc_div, hc0]
    exact ⟨.join0 j s.kb, { s with m := m', kb := s.kb + 1, cnt := 0, jng := false, need := false, cls := true, jd := true, pJ := if s.jd then s.pJ else s.kb + 1, jc := upd s.jc j .inl },
      by simp only [step, hjc, e, Option.bind_some, hv, if_true], mu_j (x := .inl) hjn rfl rfl (by simp [hjc, wJ])⟩
  | reg =>
    obtain ⟨m', e⟩ := load_ok (conf := conf) hw.1 hi.v.ah hgh c.ordL (tj j) ⟨tj j, .head⟩
    have hv : gh.val = 1 := hi.v.vh1 gh (hcl (hi.j.v1 j (Or.inl hjc))) hgh
    exact ⟨.closed j s.kh, { s with m := m', jc := upd s.jc j .inl },
      by simp only [step, hjc, e, Option.bind_some, hv, if_true], mu_j (x := .inl) hjn rfl rfl (by simp [hjc, wJ])⟩
  | wait =>
    have hv := hcl (hi.j.v1 j (Or.inr hjc))
    have hm := (hi.j.l2 j).mpr ⟨hv, hjc⟩
    exact absurd (hl.lt (by intro e; rw [e] at hm; simp at hm)) hp
  | inl => exact ⟨.inl j, complete s (tj j) j, by simp only [step, hjc, if_true], mu_j (x := .done) hjn rfl rfl (by simp [hjc, wJ])⟩

/-- No join operation is lost: from every reachable state, whatever has happened, things can go on, newest messages being read, until every
join operation that was started has completed. -/
theorem C99_completes (c : Cfg) (hc : c.good) (s : St) (h : Reachable c s) :
    ∃ acts s', exec (step c) s acts = some s' ∧ ∀ j, s'.jc j = .idle ∨ s'.jc j = .done := by
  generalize hn : mu c s = n
  induction n using Nat.strongRecOn generalizing s with
  | _ n ih =>
    by_cases hr : ∃ j, s.jc j ≠ .idle ∧ s.jc j ≠ .done
    · obtain ⟨j, h0, h1⟩ := hr
      obtain ⟨a, s', he, hl⟩ := better hc h h0 h1
      obtain ⟨acts, s2, h2, h3⟩ := ih (mu c s') (by omega) s' (Reach.tail a h he) rfl
      exact ⟨a :: acts, s2, by simp only [exec, he]; exact h2, h3⟩
    · refine ⟨[], s, rfl, fun j => ?_⟩
      by_cases e : s.jc j = .idle
      · exact Or.inl e
      · by_cases e2 : s.jc j = .done
        · exact Or.inr e2
        · exact absurd ⟨j, e, e2⟩ hr

/-! ### Examples, and the orders that are needed -/

/-- The count is zero when the join operation starts. -/
def zero : List Act := [.assoc 0 0, .work 0, .dis 0 1, .make 0, .join0 0 2, .inl 0, .meet 0, .load 3, .destroy]

/-- It is not, and the last association completes the join operation. -/
def last : List Act :=
  [.assoc 0 0, .assoc 1 1, .work 0, .make 0, .join1 0 2, .link 0, .reg 0 0, .dis 0 3, .dis 1 4, .deq 1 1, .comp 1, .meet 0, .load 5, .destroy]

/-- The last association is gone before the join operation registers. -/
def late : List Act := [.assoc 0 0, .work 0, .make 0, .join1 0 1, .dis 0 2, .deq 0 0, .closed 0 1, .inl 0, .meet 0, .load 3, .destroy]

example : (exec (step (code 2 1)) init zero).map (fun s => (s.d, s.jc 0, s.term, s.m.race)) = some (.gone, .done, false, false) := by decide +kernel
example : (exec (step (code 2 1)) init last).map (fun s => (s.d, s.jc 0, s.term, s.m.race)) = some (.gone, .done, false, false) := by decide +kernel
example : (exec (step (code 2 1)) init late).map (fun s => (s.d, s.jc 0, s.term, s.m.race)) = some (.gone, .done, false, false) := by decide +kernel

/-- With any one of these orders weaker, something races, or (second and third) a join operation completes although it has not seen the
work of an associated operation. The relaxed compare-exchange that sets the joining bit is not among them. -/
theorem C99_orders_needed :
    (∃ s, Reachable { code 2 1 with ordD := .acq } s ∧ s.m.race = true) ∧
    (∃ s, Reachable { code 2 1 with ordD := .rel } s ∧ s.jc 0 = .done ∧ s.m.logged 2 ⟨ta 0, .work⟩ ∧ (s.cv 0).know 2 = false) ∧
    (∃ s, Reachable { code 2 1 with ordZ := .rel } s ∧ s.jc 0 = .done ∧ s.m.logged 1 ⟨ta 0, .work⟩ ∧ (s.cv 0).know 1 = false) ∧
    (∃ s, Reachable { code 2 1 with ordL := .rlx } s ∧ s.m.race = true) ∧
    (∃ s, Reachable { code 2 1 with ordR := .acq } s ∧ s.m.race = true) ∧
    (∃ s, Reachable { code 2 1 with ordQ := .rel } s ∧ s.m.race = true) ∧
    (∃ s, Reachable { code 2 1 with ordQ := .acq } s ∧ s.m.race = true) := by
  refine ⟨?_, ?_, ?_, ?_, ?_, ?_, ?_⟩
  · exact Reach.witness (init := init) (step := step _) zero (fun x : St => x.m.race) (by decide +kernel)
  · obtain ⟨s, h, hp⟩ := Reach.witness (init := init) (step := step { code 2 1 with ordD := .rel }) last
      (fun x : St => x.jc 0 == .done && decide (x.m.log[2]? = some (⟨ta 0, .work⟩ : Acc)) && !(x.cv 0).know 2) (by decide +kernel)
    simp only [Bool.and_eq_true, beq_iff_eq, decide_eq_true_eq, Bool.not_eq_true'] at hp
    exact ⟨s, h, hp.1.1, hp.1.2, hp.2⟩
  · obtain ⟨s, h, hp⟩ := Reach.witness (init := init) (step := step { code 2 1 with ordZ := .rel }) zero
      (fun x : St => x.jc 0 == .done && decide (x.m.log[1]? = some (⟨ta 0, .work⟩ : Acc)) && !(x.cv 0).know 1) (by decide +kernel)
    simp only [Bool.and_eq_true, beq_iff_eq, decide_eq_true_eq, Bool.not_eq_true'] at hp
    exact ⟨s, h, hp.1.1, hp.1.2, hp.2⟩
  · exact Reach.witness (init := init) (step := step _) late (fun x : St => x.m.race) (by decide +kernel)
  · exact Reach.witness (init := init) (step := step _) last (fun x : St => x.m.race) (by decide +kernel)
  · exact Reach.witness (init := init) (step := step _) last (fun x : St => x.m.race) (by decide +kernel)
  · exact Reach.witness (init := init) (step := step _) late (fun x : St => x.m.race) (by decide +kernel)

end Verif.WmScope
