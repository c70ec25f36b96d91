import Verif.WmQueue.Model
import Verif.WM.Lemmas
/-!
# The lock-free queues of nodes under the C++ memory model — theorems (C95)
-/
namespace Verif.WmQueue

open Verif.WM

/-- Following the links from `v` gives the nodes `l`, then null. -/
def chain (nxt : Nat → Nat) : Nat → List Nat → Prop
  | v, [] => v = 0
  | v, a :: l => v = a ∧ a ≠ 0 ∧ chain nxt (nxt a) l

@[grind =] theorem chain_nil (nxt : Nat → Nat) (v : Nat) : chain nxt v [] ↔ v = 0 := Iff.rfl
@[grind =] theorem chain_cons (nxt : Nat → Nat) (v a : Nat) (l : List Nat) : chain nxt v (a :: l) ↔ v = a ∧ a ≠ 0 ∧ chain nxt (nxt a) l :=
  Iff.rfl

theorem chain_upd {nxt : Nat → Nat} {l : List Nat} {t x : Nat} (ht : t ∉ l) : ∀ v, chain nxt v l → chain (upd nxt t x) v l := by
  induction l with
  | nil => intro v h; exact h
  | cons a l ih =>
    intro v h
    simp only [List.mem_cons, not_or] at ht
    refine ⟨h.1, h.2.1, ?_⟩
    rw [upd_other _ _ (fun hh => ht.1 hh.symm)]
    exact ih ht.2 _ h.2.2

theorem chain_ne {nxt : Nat → Nat} {l : List Nat} {v : Nat} (h : chain nxt v l) (hv : v ≠ 0) : ∃ l', l = v :: l' := by
  cases l with
  | nil => exact absurd h hv
  | cons a l => exact ⟨l, by rw [h.1]⟩

structure Inv (s : St) : Prop where
  noRace : s.m.race = false
  h1 : ∀ j, j ≤ s.kh → s.m.hist .head j ≠ none
  h2 : ∀ j, s.kh < j → s.m.hist .head j = none
  own : ∀ k b, s.m.logged k b → (s.m.cur b.who).know k = true
  ch : ∀ g, s.m.hist .head s.kh = some g → chain s.nxt g.val s.pend
  chW : ∀ t, chain s.nxt (s.walk t) (s.rest t)
  link : ∀ t old, s.pc t = .ready old → s.nxt t = old
  pendP : ∀ n, n ∈ s.pend → s.pc n = .pushed
  restP : ∀ t n, n ∈ s.rest t → s.pc n = .pushed
  outP : ∀ n, n ∈ s.out → s.pc n = .pushed
  all : ∀ n, s.pc n = .pushed → n ∈ s.pend ∨ n ∈ s.out ∨ ∃ t, n ∈ s.rest t
  pendNd : s.pend.Nodup
  restNd : ∀ t, (s.rest t).Nodup
  outNd : s.out.Nodup
  d1 : ∀ t n, n ∈ s.pend → n ∉ s.rest t
  d2 : ∀ n, n ∈ s.pend → n ∉ s.out
  d3 : ∀ t n, n ∈ s.rest t → n ∉ s.out
  d4 : ∀ t u n, n ∈ s.rest t → n ∈ s.rest u → t = u
  kp : ∀ g k b n, s.m.hist .head s.kh = some g → s.m.logged k b → b.what = .put n → n ∈ s.pend → g.view.know k = true
  kr : ∀ t k b n, s.m.logged k b → b.what = .put n → n ∈ s.rest t → (s.m.cur t).know k = true
  putW : ∀ k b n, s.m.logged k b → b.what = .put n → b.who = n
  useO : ∀ k b n, s.m.logged k b → b.what = .use n → n ∈ s.out
  vb : ∀ t, s.vis t ++ s.rest t = s.batch t

theorem inv_init : Inv init := by
  constructor <;> simp (config := { contextual := true }) [init, Mem.init, Mem.logged, chain]
  intro j hj; omega

/-- Reading the head. -/
theorem inv_load {s : St} {o : Ord} {t ts v : Nat} {m' : Mem Loc Acc} (h : Inv s) (hp : s.pc t ≠ .pushed)
    (hm : s.m.load conf o t .head ts ⟨t, .atom⟩ = some (v, m')) : Inv { s with m := m', pc := upd s.pc t (.got v) } := by
  have hq : s.m.racy conf t ⟨t, .atom⟩ = false := by
    rw [racy_false]; intro k b _ hc; obtain ⟨w, b⟩ := b; cases b <;> cases hc
  obtain ⟨g, t1, t2, t3, t4, t5, t6, t7, t8, t9⟩ := load_spec hm
  have hlog := fun k b => logged_snoc t5 k b
  have hlt := logged_lt s.m
  have hh : ∀ l j, m'.hist l j = s.m.hist l j := fun l j => by rw [t4]
  have hr : m'.race = false := by rw [t6, h.noRace, hq]; rfl
  have mono : ∀ u k, (s.m.cur u).know k = true → (m'.cur u).know k = true := fun u k hk => by
    by_cases hu : u = t
    · subst hu; rw [t8, hk]; rfl
    · rw [t7 u hu]; exact hk
  have hself : (m'.cur t).know s.m.log.length = true := by rw [t8]; simp
  clear t1 t2 t3 t4 t5 t6 t7 t8 t9 hq hm
  obtain ⟨g1, g2, g3, g4, g5, g6, g7, g8, g9, g10, g11, g12, g13, g14, g15, g16, g17, g18, g19, g20, g21, g22, g23⟩ := h
  constructor <;> (try dsimp only) <;> first | assumption | grind | skip

/-- Writing the node. -/
theorem inv_put {s : St} {t old : Nat} (h : Inv s) (hp : s.pc t = .got old) :
    Inv { s with m := s.m.touch conf t ⟨t, .put t⟩, nxt := upd s.nxt t old, pc := upd s.pc t (.ready old) } := by
  have hq : s.m.racy conf t ⟨t, .put t⟩ = false := by
    rw [racy_false]; intro k b hk hc
    have h1 := h.own k b hk
    have h2 := h.putW k b t hk
    have h3 := h.useO k b t hk
    have h4 := h.outP t
    obtain ⟨w, b⟩ := b
    cases b <;> simp_all [conf]
  obtain ⟨t1, t2, t3, t4, t5, t6⟩ := touch_spec conf s.m t ⟨t, .put t⟩
  have hlog := fun k b => logged_snoc t2 k b
  have hlt := logged_lt s.m
  generalize s.m.touch conf t ⟨t, .put t⟩ = m' at *
  have hh : ∀ l j, m'.hist l j = s.m.hist l j := fun l j => by rw [t1]
  have hr : m'.race = false := by rw [t3, h.noRace, hq]; rfl
  have mono : ∀ u k, (s.m.cur u).know k = true → (m'.cur u).know k = true := fun u k hk => by
    by_cases hu : u = t
    · subst hu; rw [t5, hk]; rfl
    · rw [t4 u hu]; exact hk
  have hself : (m'.cur t).know s.m.log.length = true := by rw [t5]; simp
  clear t1 t2 t3 t4 t5 t6 hq
  have c1 : t ∉ s.pend := fun hx => by have := h.pendP t hx; rw [hp] at this; cases this
  have c2 : ∀ u, t ∉ s.rest u := fun u hx => by have := h.restP u t hx; rw [hp] at this; cases this
  have c3 := fun v => chain_upd (nxt := s.nxt) (x := old) c1 v
  have c4 := fun u v => chain_upd (nxt := s.nxt) (x := old) (c2 u) v
  obtain ⟨g1, g2, g3, g4, g5, g6, g7, g8, g9, g10, g11, g12, g13, g14, g15, g16, g17, g18, g19, g20, g21, g22, g23⟩ := h
  constructor <;> (try dsimp only) <;> first | assumption | grind | skip

/-- A read-modify-write reads the newest message. -/
theorem newest {s : St} {ts : Nat} {g : Msg Loc} (h : Inv s) (h1 : s.m.hist .head ts = some g) (h2 : s.m.hist .head (ts + 1) = none) :
    ts = s.kh := by
  rcases Nat.lt_trichotomy ts s.kh with hl | hl | hl
  · exact absurd h2 (h.h1 (ts + 1) hl)
  · exact hl
  · rw [h.h2 ts hl] at h1; cases h1

/-- Pushing. -/
theorem inv_push {s : St} {o : Ord} {t ts old : Nat} {m' : Mem Loc Acc} (h : Inv s) (ho : o.isRel = true) (ht : t ≠ 0)
    (hp : s.pc t = .ready old) (hm : s.m.rmw conf o t .head ts (fun _ => t) ⟨t, .atom⟩ = some (old, m')) :
    Inv { s with m := m', pc := upd s.pc t .pushed, kh := ts + 1, pend := t :: s.pend } := by
  have hq : s.m.racy conf t ⟨t, .atom⟩ = false := by
    rw [racy_false]; intro k b _ hc; obtain ⟨w, b⟩ := b; cases b <;> cases hc
  obtain ⟨g, t1, t2, t3, t4, t5, t6, t7, t8, t9, t10, g', t11, t12, t13, t14⟩ := rmw_spec hm
  have hts := newest h t1 t4
  subst hts
  have hlog := fun k b => logged_snoc t5 k b
  have hlt := logged_lt s.m
  have hr : m'.race = false := by rw [t6, h.noRace, hq]; rfl
  have mono : ∀ u k, (s.m.cur u).know k = true → (m'.cur u).know k = true := fun u k hk => by
    by_cases hu : u = t
    · subst hu; rw [t8, hk]; rfl
    · rw [t7 u hu]; exact hk
  have hself : (m'.cur t).know s.m.log.length = true := by rw [t8]; simp
  have k1 : ∀ k, g.view.know k = true → g'.view.know k = true := fun k hk => by rw [t13, hk]; rfl
  have k2 : ∀ k, (m'.cur t).know k = true → g'.view.know k = true := fun k hk => by rw [t13, hk, ho]; simp
  have hh := fun j => t10 .head j
  clear t3 t5 t6 t7 t8 t9 t10 t13 t14 hq hm
  obtain ⟨g1, g2, g3, g4, g5, g6, g7, g8, g9, g10, g11, g12, g13, g14, g15, g16, g17, g18, g19, g20, g21, g22, g23⟩ := h
  constructor <;> (try dsimp only) <;> first | assumption | grind | skip

/-- Taking the list. -/
theorem inv_take {s : St} {o : Ord} {t ts v : Nat} {m' : Mem Loc Acc} (h : Inv s) (ho : o.isAcq = true)
    (hw : s.walk t = 0) (hm : s.m.rmw conf o t .head ts (fun _ => 0) ⟨t, .atom⟩ = some (v, m')) :
    Inv { s with m := m', kh := ts + 1, walk := upd s.walk t v, vis := upd s.vis t [], batch := upd s.batch t s.pend,
                 rest := upd s.rest t s.pend, pend := [] } := by
  have hq : s.m.racy conf t ⟨t, .atom⟩ = false := by
    rw [racy_false]; intro k b _ hc; obtain ⟨w, b⟩ := b; cases b <;> cases hc
  obtain ⟨g, t1, t2, t3, t4, t5, t6, t7, t8, t9, t10, g', t11, t12, t13, t14⟩ := rmw_spec hm
  have hts := newest h t1 t4
  subst hts
  have hlog := fun k b => logged_snoc t5 k b
  have hlt := logged_lt s.m
  have hr : m'.race = false := by rw [t6, h.noRace, hq]; rfl
  have mono : ∀ u k, (s.m.cur u).know k = true → (m'.cur u).know k = true := fun u k hk => by
    by_cases hu : u = t
    · subst hu; rw [t8, hk]; rfl
    · rw [t7 u hu]; exact hk
  have hself : (m'.cur t).know s.m.log.length = true := by rw [t8]; simp
  have k1 : ∀ k, g.view.know k = true → (m'.cur t).know k = true := fun k hk => by rw [t8, hk, ho]; simp
  have hh := fun j => t10 .head j
  have he : s.rest t = [] := by
    have := h.chW t
    rw [hw] at this
    cases hl : s.rest t with
    | nil => rfl
    | cons a l => rw [hl] at this; exact absurd this.1.symm this.2.1
  clear t3 t5 t6 t7 t8 t9 t10 t13 t14 hq hm
  obtain ⟨g1, g2, g3, g4, g5, g6, g7, g8, g9, g10, g11, g12, g13, g14, g15, g16, g17, g18, g19, g20, g21, g22, g23⟩ := h
  constructor <;> (try dsimp only) <;> first | assumption | grind | skip
  intro n hn
  rcases g11 n hn with h1 | h1 | ⟨u, h1⟩
  · exact .inr (.inr ⟨t, by simpa using h1⟩)
  · exact .inr (.inl h1)
  · by_cases hu : u = t
    · subst hu; rw [he] at h1; cases h1
    · exact .inr (.inr ⟨u, by rw [upd_other _ _ hu]; exact h1⟩)

/-- Using the next node. -/
theorem inv_visit {s : St} {t : Nat} (h : Inv s) (hw : s.walk t ≠ 0) :
    Inv { s with m := s.m.touch conf t ⟨t, .use (s.walk t)⟩, walk := upd s.walk t (s.nxt (s.walk t))
                 vis := upd s.vis t (s.vis t ++ [s.walk t]), out := s.out ++ [s.walk t], rest := upd s.rest t (s.rest t).tail } := by
  obtain ⟨l, hl⟩ := chain_ne (h.chW t) hw
  have hin : s.walk t ∈ s.rest t := by rw [hl]; simp
  have hq : s.m.racy conf t ⟨t, .use (s.walk t)⟩ = false := by
    rw [racy_false]; intro k b hk hc
    have h1 := h.kr t k b (s.walk t) hk
    have h2 := h.useO k b (s.walk t) hk
    have h3 := h.d3 t _ hin
    obtain ⟨w, b⟩ := b
    cases b <;> simp_all [conf]
  obtain ⟨t1, t2, t3, t4, t5, t6⟩ := touch_spec conf s.m t ⟨t, .use (s.walk t)⟩
  have hlog := fun k b => logged_snoc t2 k b
  have hlt := logged_lt s.m
  generalize s.m.touch conf t ⟨t, .use (s.walk t)⟩ = m' at *
  have hh : ∀ l j, m'.hist l j = s.m.hist l j := fun l j => by rw [t1]
  have hr : m'.race = false := by rw [t3, h.noRace, hq]; rfl
  have mono : ∀ u k, (s.m.cur u).know k = true → (m'.cur u).know k = true := fun u k hk => by
    by_cases hu : u = t
    · subst hu; rw [t5, hk]; rfl
    · rw [t4 u hu]; exact hk
  have hself : (m'.cur t).know s.m.log.length = true := by rw [t5]; simp
  clear t1 t2 t3 t4 t5 t6 hq
  have hc := h.chW t
  rw [hl] at hc
  have hnd := h.restNd t
  rw [hl] at hnd
  have htl : (s.rest t).tail = l := by rw [hl]; rfl
  rw [htl]
  have hmem : ∀ n, n ∈ s.rest t ↔ n = s.walk t ∨ n ∈ l := fun n => by rw [hl]; simp
  have hvb := h.vb t
  rw [hl] at hvb
  obtain ⟨g1, g2, g3, g4, g5, g6, g7, g8, g9, g10, g11, g12, g13, g14, g15, g16, g17, g18, g19, g20, g21, g22, g23⟩ := h
  constructor <;> (try dsimp only) <;> first | assumption | grind | skip
  intro n hn
  rcases g11 n hn with h1 | h1 | ⟨u, h1⟩
  · exact .inl h1
  · exact .inr (.inl (by simp [h1]))
  · by_cases hu : u = t
    · subst hu
      rcases (hmem n).1 h1 with h2 | h2
      · exact .inr (.inl (by simp [h2]))
      · exact .inr (.inr ⟨u, by simpa using h2⟩)
    · exact .inr (.inr ⟨u, by rw [upd_other _ _ hu]; exact h1⟩)

theorem inv_step {c : Cfg} (h1 : c.ordPush.isRel = true) (h2 : c.ordPop.isAcq = true) {s s' : St} {a : Act} (h : Inv s)
    (hs : step c s a = some s') : Inv s' := by
  cases a with
  | go t ts =>
    simp only [step] at hs
    split at hs
    · cases hs
    · rename_i ht
      split at hs
      · rename_i hp
        cases hm : s.m.load conf .rlx t .head ts ⟨t, .atom⟩ with
        | none => rw [hm] at hs; cases hs
        | some r => rw [hm] at hs; cases hs; exact inv_load h (by rw [hp]; simp) hm
      · rename_i hp; cases hs; exact inv_put h hp
      · rename_i old hp
        cases hm : s.m.rmw conf c.ordPush t .head ts (fun _ => t) ⟨t, .atom⟩ with
        | none => rw [hm] at hs; cases hs
        | some r =>
          obtain ⟨v, m'⟩ := r
          rw [hm] at hs
          simp only [Option.bind_some] at hs
          split at hs
          · rename_i hv; cases hs; cases hv; exact inv_push h h1 ht hp hm
          · cases hs
      · cases hs
  | fail t ts =>
    simp only [step] at hs
    split at hs
    · rename_i hp
      cases hm : s.m.load conf .rlx t .head ts ⟨t, .atom⟩ with
      | none => rw [hm] at hs; cases hs
      | some r => rw [hm] at hs; cases hs; exact inv_load h (by rw [hp]; simp) hm
    · cases hs
  | take t ts =>
    simp only [step] at hs
    split at hs
    · rename_i hw
      cases hm : s.m.rmw conf c.ordPop t .head ts (fun _ => 0) ⟨t, .atom⟩ with
      | none => rw [hm] at hs; cases hs
      | some r => rw [hm] at hs; cases hs; exact inv_take h h2 hw hm
    · cases hs
  | visit t =>
    simp only [step] at hs
    split at hs
    · cases hs
    · rename_i hw; cases hs; exact inv_visit h hw

theorem inv_reach {c : Cfg} (h1 : c.ordPush.isRel = true) (h2 : c.ordPop.isAcq = true) {s : St} (h : Reachable c s) : Inv s :=
  Reach.inv Inv inv_init (fun _ _ _ hi he => inv_step h1 h2 hi he) s h

/-- **C95**: with a release CAS to push and an acquire read-modify-write to take the list, what a producer wrote before it pushed a
node happens before a consumer's use of the node: nothing races… -/
theorem C95_no_race {c : Cfg} (h1 : c.ordPush.isRel = true) (h2 : c.ordPop.isAcq = true) {s : St} (h : Reachable c s) :
    s.m.race = false := (inv_reach h1 h2 h).noRace

/-- **C95**: …no node is used twice, whoever takes lists… -/
theorem C95_once {c : Cfg} (h1 : c.ordPush.isRel = true) (h2 : c.ordPop.isAcq = true) {s : St} (h : Reachable c s) : s.out.Nodup :=
  (inv_reach h1 h2 h).outNd

/-- **C95**: …only nodes that were pushed… -/
theorem C95_pushed {c : Cfg} (h1 : c.ordPush.isRel = true) (h2 : c.ordPop.isAcq = true) {s : St} (h : Reachable c s) (n : Nat)
    (hn : n ∈ s.out) : s.pc n = .pushed := (inv_reach h1 h2 h).outP n hn

/-- **C95**: …all of them: once the head is null and no walk is under way, every pushed node was used… -/
theorem C95_complete {c : Cfg} (h1 : c.ordPush.isRel = true) (h2 : c.ordPop.isAcq = true) {s : St} (h : Reachable c s)
    (hw : ∀ t, s.walk t = 0) (hh : ∀ j g, s.m.hist .head j = some g → s.m.hist .head (j + 1) = none → g.val = 0)
    (n : Nat) (hn : s.pc n = .pushed) : n ∈ s.out := by
  have hi := inv_reach h1 h2 h
  rcases hi.all n hn with hx | hx | ⟨t, hx⟩
  · cases hg : s.m.hist .head s.kh with
    | none => exact absurd hg (hi.h1 _ (Nat.le_refl _))
    | some g =>
      have := hi.ch g hg
      rw [hh _ g hg (hi.h2 _ (Nat.lt_succ_self _))] at this
      cases hp : s.pend with
      | nil => rw [hp] at hx; cases hx
      | cons a l => rw [hp] at this; exact absurd this.1.symm this.2.1
  · exact hx
  · have := hi.chW t
    rw [hw t] at this
    cases hp : s.rest t with
    | nil => rw [hp] at hx; cases hx
    | cons a l => rw [hp] at this; exact absurd this.1.symm this.2.1

/-- **C95**: …and in order: at the end of a walk the nodes used are those that were pushed since the list was taken before, the
newest first (which `make_reversed` reverses). -/
theorem C95_order {c : Cfg} (h1 : c.ordPush.isRel = true) (h2 : c.ordPop.isAcq = true) {s : St} (h : Reachable c s) (t : Nat)
    (hw : s.walk t = 0) : s.vis t = s.batch t := by
  have hi := inv_reach h1 h2 h
  have := hi.chW t
  rw [hw] at this
  have hb := hi.vb t
  cases hp : s.rest t with
  | nil => rw [hp] at hb; simpa using hb
  | cons a l => rw [hp] at this; exact absurd this.1.symm this.2.1

/-- Thread 1 pushes, thread 2 takes the list and uses the node. -/
def exActs : List Act := [.go 1 0, .go 1 0, .go 1 0, .take 2 1, .visit 2]

/-- **C95**: weaker orders do not do. -/
theorem C95_orders_needed :
    (∀ o p : Ord, o.isRel = false → ∃ s, Reachable ⟨o, p⟩ s ∧ s.m.race = true) ∧
    (∀ o p : Ord, p.isAcq = false → ∃ s, Reachable ⟨o, p⟩ s ∧ s.m.race = true) := by
  have key : ∀ o p : Ord, (o.isRel = false ∨ p.isAcq = false) →
      ((exec (step ⟨o, p⟩) init exActs).any fun s : St => s.m.race) = true := by
    intro o p h; cases o <;> cases p <;> first | (simp [Ord.isRel, Ord.isAcq] at h; done) | decide +kernel
  refine ⟨fun o p h => ?_, fun o p h => ?_⟩
  · obtain ⟨s, hs, hr⟩ := Reach.witness (init := init) (step := step ⟨o, p⟩) exActs (fun s : St => s.m.race) (key o p (.inl h))
    exact ⟨s, hs, hr⟩
  · obtain ⟨s, hs, hr⟩ := Reach.witness (init := init) (step := step ⟨o, p⟩) exActs (fun s : St => s.m.race) (key o p (.inr h))
    exact ⟨s, hs, hr⟩

/-- The code: two nodes pushed concurrently (one CAS fails), taken together by thread 3, all used. -/
example : ∃ s, Reachable ⟨.ar, .acq⟩ s ∧ s.m.race = false ∧ s.out = [2, 1] ∧ s.vis 3 = [2, 1] ∧ s.walk 3 = 0 := by
  obtain ⟨s, hs, hr⟩ := Reach.witness (init := init) (step := step ⟨.ar, .acq⟩)
    [.go 1 0, .go 2 0, .go 2 0, .go 1 0, .go 1 0, .fail 2 1, .go 2 0, .go 2 1, .take 3 2, .visit 3, .visit 3]
    (fun s : St => decide (s.m.race = false ∧ s.out = [2, 1] ∧ s.vis 3 = [2, 1] ∧ s.walk 3 = 0)) (by decide +kernel)
  exact ⟨s, hs, of_decide_eq_true hr⟩

end Verif.WmQueue
