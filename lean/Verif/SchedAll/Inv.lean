import Verif.SchedAll.Model
import Verif.ListSum
/-!
# `schedule_all` — invariant
-/
namespace Verif.SchedAll

/-- 1 for an element whose sender has not completed. -/
def open1 : Item → Nat
  | .finished => 0
  | _ => 1

/-- The number of elements whose senders have not completed. -/
def opens (n : Nat) (item : Nat → Item) : Nat := lsum open1 item (List.range n)

theorem opens_upd {n i : Nat} {item : Nat → Item} {x : Item} (h : i < n) :
    opens n (upd item i x) + open1 (item i) = opens n item + open1 x :=
  lsum_upd_in open1 item List.nodup_range (List.mem_range.2 h)

theorem lsum_congr {α β : Type} {c : β → Nat} {f g : α → β} : ∀ {l : List α}, (∀ a ∈ l, c (f a) = c (g a)) →
    lsum c f l = lsum c g l
  | [], _ => rfl
  | a :: l, h => by
    simp only [lsum]; rw [h a (by simp), lsum_congr (l := l) (fun b hb => h b (by simp [hb]))]

theorem lsum_mono {α β : Type} {c : β → Nat} {f g : α → β} : ∀ {l : List α}, (∀ a ∈ l, c (f a) ≤ c (g a)) →
    lsum c f l ≤ lsum c g l
  | [], _ => Nat.le_refl _
  | a :: l, h => by
    simp only [lsum]
    exact Nat.add_le_add (h a (by simp)) (lsum_mono (l := l) (fun b hb => h b (by simp [hb])))

/-- How many items the thread in `start` has started. -/
def bound (c : Cfg) : PC → Nat
  | .conn _ => 0
  | .fill _ i => i
  | .lockC i0 => i0 + c.chunk
  | .flushC i0 => i0 + c.chunk
  | .unlockC i0 => i0 + c.chunk
  | .last i => i
  | _ => c.n

/-- The thread in `start` holds the mutex. -/
def holds : PC → Bool
  | .flushC _ => true
  | .unlockC _ => true
  | .flushF => true
  | .unlockF => true
  | _ => false

/-- The position is a possible one. -/
def pcOk (c : Cfg) : PC → Prop
  | .conn k => k ≤ c.n
  | .fill i0 i => i0 ≤ i ∧ i ≤ i0 + c.chunk ∧ i0 + c.chunk < c.n
  | .lockC i0 => i0 + c.chunk < c.n
  | .flushC i0 => i0 + c.chunk < c.n
  | .unlockC i0 => i0 + c.chunk < c.n
  | .last i => i ≤ c.n
  | _ => True

structure Inv (c : Cfg) (s : St) : Prop where
  ok : pcOk c s.pc
  far : ∀ i, c.n ≤ i → s.item i = .none
  conn : ∀ k, s.pc = .conn k → ∀ i, i < c.n → s.item i = if i < k then .connected else .none
  started : (∀ k, s.pc ≠ .conn k) → Sig.error ∉ s.out → ∀ i, i < bound c s.pc → i < c.n →
    s.item i ≠ .none ∧ s.item i ≠ .connected
  rest : (∀ k, s.pc ≠ .conn k) → Sig.error ∉ s.out → ∀ i, bound c s.pc ≤ i → i < c.n → s.item i = .connected
  err : Sig.error ∈ s.out → s.out = [.error] ∧ s.pc = .ret ∧ ∀ i, s.item i = .none ∨ s.item i = .connected
  errAt : Sig.error ∈ s.out → ∃ k, c.throwAt = some k ∧ k < c.n
  noErr : (∀ k, s.pc ≠ .conn k) → Sig.error ∉ s.out → ∀ k, c.throwAt = some k → c.n ≤ k
  noErr2 : ∀ k, s.pc = .conn k → ∀ j, c.throwAt = some j → k ≤ j
  count : s.countdown = opens c.n s.item
  out : Sig.error ∉ s.out → s.out = if s.countdown = 0 then [.value] else []
  tasksNd : s.tasks.Nodup
  tasks : ∀ i, i ∈ s.tasks ↔ s.item i = .listed
  own1 : s.owner = .starter ↔ holds s.pc = true
  own2 : ∀ i, s.owner = .other i ↔ s.item i = .holding
  has1 : s.hasStarted = true → s.tasks = [] ∧ (s.pc = .unlockF ∨ s.pc = .ret)
  has2 : s.hasStarted = false → (∀ i, s.item i ≠ .handing) ∧ s.pc ≠ .unlockF ∧
    (s.pc = .ret → Sig.error ∈ s.out ∨ c.n = 0)
  givenNd : s.given.Nodup
  skipNd : s.skipped.Nodup
  given1 : ∀ i, i ∈ s.given → s.item i = .running ∨ s.item i = .finished
  given2 : ∀ i, s.item i = .running → i ∈ s.given
  skip1 : ∀ i, i ∈ s.skipped → s.item i = .finished ∧ i ∉ s.given ∧ c.kind i ≠ .direct
  fin : ∀ i, s.item i = .finished → i ∈ s.given ∨ i ∈ s.skipped
  gone : s.gone = true → s.out ≠ [] ∧ (c.waits = true → s.pc = .ret)
  uaf : c.waits = true → s.uaf = false
  nextsC : ∀ k, s.pc = .conn k → s.nexts = List.range k
  nexts : (∀ k, s.pc ≠ .conn k) → Sig.error ∉ s.out → s.nexts = List.range c.n
  nextsE : ∃ k, k ≤ c.n ∧ s.nexts = List.range k
  direct : ∀ i, c.kind i = .direct → s.item i ≠ .late ∧ s.item i ≠ .holding ∧ s.item i ≠ .handing

theorem inv_init (c : Cfg) : Inv c (init c) := by
  have ho : opens c.n (fun _ => Item.none) = c.n := by
    have : ∀ l : List Nat, lsum open1 (fun _ => Item.none) l = l.length := by
      intro l; induction l with
      | nil => rfl
      | cons a l ih => simp only [lsum, ih, open1, List.length_cons]; omega
    simp [opens, this]
  by_cases h : c.n = 0
  · constructor <;> simp [init, h, pcOk, bound, holds] <;> (try omega)
    · rfl
  · constructor <;> simp [init, h, pcOk, bound, holds, ho] <;> (try omega)

theorem opens_pos {n i : Nat} {item : Nat → Item} (h : i < n) (hi : item i ≠ .finished) : 0 < opens n item := by
  have := le_lsum open1 item (l := List.range n) (List.mem_range.2 h)
  have h1 : open1 (item i) = 1 := by cases hx : item i <;> simp_all [open1]
  unfold opens; omega

theorem opens_zero {n : Nat} {item : Nat → Item} (h : opens n item = 0) (i : Nat) (hi : i < n) : item i = .finished := by
  by_cases hf : item i = .finished
  · exact hf
  · have := opens_pos hi hf; omega

/-- An item that is not finished changes its place. -/
theorem opens_move {n i : Nat} {item : Nat → Item} {x : Item} (h : i < n) (hi : item i ≠ .finished) (hx : x ≠ .finished) :
    opens n (upd item i x) = opens n item := by
  have := opens_upd (item := item) (x := x) h
  have h1 : open1 (item i) = 1 := by cases hx : item i <;> simp_all [open1]
  have h2 : open1 x = 1 := by cases x <;> simp_all [open1]
  omega

theorem opens_fin {n i : Nat} {item : Nat → Item} (h : i < n) (hi : item i ≠ .finished) :
    opens n (upd item i .finished) = opens n item - 1 ∧ 0 < opens n item := by
  have := opens_upd (item := item) (x := .finished) h
  have h1 : open1 (item i) = 1 := by cases hx : item i <;> simp_all [open1]
  have h2 : open1 .finished = 0 := rfl
  omega

theorem opens_flush {n : Nat} {item : Nat → Item} {l : List Nat} (h : ∀ i, i ∈ l → item i = .listed) :
    opens n (fun j => if j ∈ l then .pool else item j) = opens n item := by
  apply lsum_congr
  intro j _
  by_cases hj : j ∈ l
  · simp [hj, h j hj, open1]
  · simp [hj]

theorem lt_of_item {c : Cfg} {s : St} (h : Inv c s) {i : Nat} (hi : s.item i ≠ .none) : i < c.n := by
  by_cases hn : i < c.n
  · exact hn
  · exact absurd (h.far i (by omega)) hi

/-- While something is going on, the operation state exists if it is not destroyed before `start` returns. -/
theorem alive {c : Cfg} {s : St} (h : Inv c s) {i : Nat} (h1 : s.item i ≠ .none) (h2 : s.item i ≠ .connected)
    (h3 : s.item i ≠ .finished) : Sig.error ∉ s.out ∧ s.gone = false := by
  have hn := lt_of_item h h1
  have hne : Sig.error ∉ s.out := fun he => by rcases (h.err he).2.2 i with h4 | h4 <;> contradiction
  refine ⟨hne, ?_⟩
  cases hg : s.gone with
  | false => rfl
  | true =>
    have := (h.gone hg).1
    rw [h.out hne] at this
    split at this
    · rename_i h0; have := opens_zero (h.count ▸ h0) i hn; contradiction
    · exact absurd rfl this

theorem alive_pc {c : Cfg} {s : St} (h : Inv c s) (hp : s.pc ≠ .ret) : Sig.error ∉ s.out ∧ (c.waits = true → s.gone = false) := by
  refine ⟨fun he => hp (h.err he).2.1, fun hw => ?_⟩
  cases hg : s.gone with
  | false => rfl
  | true => exact absurd ((h.gone hg).2 hw) hp

set_option maxHeartbeats 4000000 in
/-- A sender completes. -/
theorem inv_done {c : Cfg} {s s' : St} {i : Nat} (h : Inv c s) (hs : step c s (.done i) = some s') : Inv c s' := by
  simp only [step] at hs; split at hs <;> cases hs
  rename_i hi
  have hn : i < c.n := lt_of_item h (by rw [hi]; simp)
  have hf := opens_fin hn (by rw [hi]; simp : s.item i ≠ .finished)
  obtain ⟨hne, hg⟩ := alive h (i := i) (by rw [hi]; simp) (by rw [hi]; simp) (by rw [hi]; simp)
  obtain ⟨g1, g2, g3, g4, g5, g6, g7, g8, g9, g10, g11, g12, g13, g14, g15, g16, g17, g18, g19, g20, g21, g22, g23, g24, g25, g26,
    g27, g28, g29⟩ := h
  constructor <;> (try dsimp only [finish]) <;> first | assumption | grind [finish] | skip
  · intro j hk; have := g29 j hk; by_cases hj : j = i <;> simp_all [upd_other]

set_option maxHeartbeats 4000000 in
theorem inv_lateSkip {c : Cfg} {s s' : St} {i : Nat} (h : Inv c s) (hs : step c s (.lateSkip i) = some s') : Inv c s' := by
  simp only [step] at hs; split at hs <;> cases hs
  rename_i hi
  have hn : i < c.n := lt_of_item h (by rw [hi]; simp)
  have hf := opens_fin hn (by rw [hi]; simp : s.item i ≠ .finished)
  obtain ⟨hne, hg⟩ := alive h (i := i) (by rw [hi]; simp) (by rw [hi]; simp) (by rw [hi]; simp)
  obtain ⟨g1, g2, g3, g4, g5, g6, g7, g8, g9, g10, g11, g12, g13, g14, g15, g16, g17, g18, g19, g20, g21, g22, g23, g24, g25, g26,
    g27, g28, g29⟩ := h
  constructor <;> (try dsimp only [finish]) <;> first | assumption | grind [finish] | skip
  · intro j hk; have := g29 j hk; by_cases hj : j = i <;> simp_all [upd_other]

set_option maxHeartbeats 4000000 in
theorem inv_run {c : Cfg} {s s' : St} {i : Nat} (h : Inv c s) (hs : step c s (.run i) = some s') : Inv c s' := by
  simp only [step] at hs; split at hs <;> cases hs
  rename_i hi
  have hn : i < c.n := lt_of_item h (by rw [hi]; simp)
  have hf := opens_move (x := .running) hn (by rw [hi]; simp : s.item i ≠ .finished) (by simp)
  obtain ⟨hne, hg⟩ := alive h (i := i) (by rw [hi]; simp) (by rw [hi]; simp) (by rw [hi]; simp)
  obtain ⟨g1, g2, g3, g4, g5, g6, g7, g8, g9, g10, g11, g12, g13, g14, g15, g16, g17, g18, g19, g20, g21, g22, g23, g24, g25, g26,
    g27, g28, g29⟩ := h
  constructor <;> (try dsimp only) <;> first | assumption | grind | skip

set_option maxHeartbeats 4000000 in
theorem inv_lateEnq {c : Cfg} {s s' : St} {i : Nat} (h : Inv c s) (hs : step c s (.lateEnq i) = some s') : Inv c s' := by
  simp only [step] at hs; split at hs <;> cases hs
  rename_i hi
  have hn : i < c.n := lt_of_item h (by rw [hi]; simp)
  have hf := opens_move (x := .pool) hn (by rw [hi]; simp : s.item i ≠ .finished) (by simp)
  obtain ⟨hne, hg⟩ := alive h (i := i) (by rw [hi]; simp) (by rw [hi]; simp) (by rw [hi]; simp)
  obtain ⟨g1, g2, g3, g4, g5, g6, g7, g8, g9, g10, g11, g12, g13, g14, g15, g16, g17, g18, g19, g20, g21, g22, g23, g24, g25, g26,
    g27, g28, g29⟩ := h
  constructor <;> (try dsimp only) <;> first | assumption | grind | skip

set_option maxHeartbeats 4000000 in
theorem inv_lateLock {c : Cfg} {s s' : St} {i : Nat} (h : Inv c s) (hs : step c s (.lateLock i) = some s') : Inv c s' := by
  simp only [step] at hs; split at hs <;> cases hs
  rename_i hi
  obtain ⟨hi, ho⟩ := hi
  have hn : i < c.n := lt_of_item h (by rw [hi]; simp)
  have hf := opens_move (x := .holding) hn (by rw [hi]; simp : s.item i ≠ .finished) (by simp)
  obtain ⟨hne, hg⟩ := alive h (i := i) (by rw [hi]; simp) (by rw [hi]; simp) (by rw [hi]; simp)
  obtain ⟨g1, g2, g3, g4, g5, g6, g7, g8, g9, g10, g11, g12, g13, g14, g15, g16, g17, g18, g19, g20, g21, g22, g23, g24, g25, g26,
    g27, g28, g29⟩ := h
  constructor <;> (try dsimp only) <;> first | assumption | grind | skip
  all_goals intro j hk; have := g29 j hk; by_cases hj : j = i <;> simp_all [upd_other]

set_option maxHeartbeats 4000000 in
theorem inv_lateTest {c : Cfg} {s s' : St} {i : Nat} (h : Inv c s) (hs : step c s (.lateTest i) = some s') : Inv c s' := by
  simp only [step] at hs; split at hs
  case isFalse => cases hs
  rename_i hi
  have hn : i < c.n := lt_of_item h (by rw [hi]; simp)
  have hf1 := opens_move (x := .handing) hn (by rw [hi]; simp : s.item i ≠ .finished) (by simp)
  have hf2 := opens_move (x := .listed) hn (by rw [hi]; simp : s.item i ≠ .finished) (by simp)
  obtain ⟨hne, hg⟩ := alive h (i := i) (by rw [hi]; simp) (by rw [hi]; simp) (by rw [hi]; simp)
  have ho := (h.own2 i).2 hi
  have hu : ∀ j, s.item j = .holding → j = i := by
    intro j hj; have := (h.own2 j).2 hj; rw [ho] at this; cases this; rfl
  obtain ⟨g1, g2, g3, g4, g5, g6, g7, g8, g9, g10, g11, g12, g13, g14, g15, g16, g17, g18, g19, g20, g21, g22, g23, g24, g25, g26,
    g27, g28, g29⟩ := h
  split at hs <;> cases hs
  · constructor <;> (try dsimp only) <;> first | assumption | grind | skip
    all_goals intro j hk; have := g29 j hk; by_cases hj : j = i <;> simp_all [upd_other]
  · constructor <;> (try dsimp only) <;> first | assumption | grind | skip
    all_goals intro j hk; have := g29 j hk; by_cases hj : j = i <;> simp_all [upd_other]

set_option maxHeartbeats 8000000 in
/-- The thread in `start` starts item `i`. -/
theorem inv_startItem {c : Cfg} {s s' : St} {i : Nat} {p : PC} (h : Inv c s) (hi : i < c.n) (hb : bound c s.pc = i)
    (hq : s.pc ≠ .ret ∧ s.pc ≠ .unlockF ∧ holds s.pc = false ∧ ∀ k, s.pc ≠ .conn k)
    (hp : p ≠ .ret ∧ p ≠ .unlockF ∧ holds p = false ∧ ∀ k, p ≠ .conn k) (hbp : bound c p = i + 1) (hok : pcOk c p)
    (hs : startItem c s i = some s') : Inv c { s' with pc := p } := by
  obtain ⟨hq1, hq2, hq3, hq4⟩ := hq
  obtain ⟨hp1, hp2, hp3, hp4⟩ := hp
  obtain ⟨hne, hw⟩ := alive_pc h hq1
  have hc : s.item i = .connected := h.rest hq4 hne i (by omega) hi
  have hf1 := opens_move (x := .listed) hi (by rw [hc]; simp : s.item i ≠ .finished) (by simp)
  have hf2 := opens_move (x := .late) hi (by rw [hc]; simp : s.item i ≠ .finished) (by simp)
  have hf3 := opens_fin hi (by rw [hc]; simp : s.item i ≠ .finished)
  obtain ⟨g1, g2, g3, g4, g5, g6, g7, g8, g9, g10, g11, g12, g13, g14, g15, g16, g17, g18, g19, g20, g21, g22, g23, g24, g25, g26,
    g27, g28, g29⟩ := h
  have hh : s.hasStarted = false := by
    cases hx : s.hasStarted with
    | false => rfl
    | true => rcases (g16 hx).2 with h1 | h1 <;> contradiction
  have g16' := g16
  simp only [startItem] at hs
  split at hs
  · split at hs <;> cases hs
    constructor <;> (try dsimp only [push]) <;> first | assumption | grind | skip
  · cases hs
    constructor <;> (try dsimp only [push]) <;> first | assumption | grind | skip
  · cases hs
    constructor <;> (try dsimp only [finish]) <;> first | assumption | grind | skip

theorem nextChunk_cases (c : Cfg) (i0 : Nat) :
    (nextChunk c i0 = .fill i0 i0 ∧ i0 + c.chunk < c.n) ∨ nextChunk c i0 = .last i0 := by
  unfold nextChunk; split
  · exact .inl ⟨rfl, by assumption⟩
  · exact .inr rfl

set_option maxHeartbeats 8000000 in
theorem inv_conn {c : Cfg} {s s' : St} {k : Nat} (h : Inv c s) (hpc : s.pc = .conn k) (hs : starter c s = some s') : Inv c s' := by
  obtain ⟨hne, hw⟩ := alive_pc h (by rw [hpc]; simp)
  have hmv : k < c.n → opens c.n (upd s.item k .connected) = opens c.n s.item := fun hk =>
    opens_move hk (by rw [h.conn k hpc k hk]; simp) (by simp)
  have hr : List.range (k + 1) = List.range k ++ [k] := List.range_succ
  have hp := opens_pos (n := c.n) (i := k) (item := s.item)
  have hnc := nextChunk_cases c 0
  obtain ⟨g1, g2, g3, g4, g5, g6, g7, g8, g9, g10, g11, g12, g13, g14, g15, g16, g17, g18, g19, g20, g21, g22, g23, g24, g25, g26,
    g27, g28, g29⟩ := h
  have hg3 := g3 k hpc
  have hg9 := g9 k hpc
  have hg26 := g26 k hpc
  simp only [starter, hpc] at hs
  simp only [hpc, pcOk] at g1
  simp only [hpc, holds] at g14
  split at hs
  · rename_i hk
    split at hs <;> cases hs
    · constructor <;> (try dsimp only [pcOk, holds, bound]) <;> first | assumption | grind | skip
    · constructor <;> (try dsimp only [pcOk, holds, bound]) <;> first | assumption | grind | skip
      · intro k' hk' i hi
        cases hk'
        by_cases hik : i = k
        · subst hik; simp
        · rw [upd_other _ _ hik, hg3 i hi]
          by_cases hlt : i < k
          · have : i < k + 1 := by omega
            simp [hlt, this]
          · have : ¬ i < k + 1 := by omega
            simp [hlt, this]
      · intro j hk; have := g29 j hk; by_cases hj : j = k <;> simp_all [upd_other]
  · cases hs
    rcases hnc with ⟨hnc, hlt⟩ | hnc <;> rw [hnc] <;>
    constructor <;> (try dsimp only [pcOk, holds, bound]) <;> first | assumption | grind | skip

set_option maxHeartbeats 8000000 in
theorem inv_starter {c : Cfg} {s s' : St} (h : Inv c s) (hs : starter c s = some s') : Inv c s' := by
  cases hpc : s.pc with
  | conn k => exact inv_conn h hpc hs
  | ret => simp [starter, hpc] at hs
  | fill i0 i =>
    have hok := h.ok
    simp only [hpc, pcOk] at hok
    simp only [starter, hpc] at hs
    split at hs
    · cases hst : startItem c s i with
      | none => simp [hst] at hs
      | some t =>
        simp only [hst, Option.map_some, Option.some.injEq] at hs; subst hs
        exact inv_startItem (p := .fill i0 (i + 1)) h (by omega) (by simp [hpc, bound]) (by simp [hpc, holds])
          (by simp [holds]) (by simp [bound]) (by simp only [pcOk]; omega) hst
    · cases hs
      obtain ⟨hne, hw⟩ := alive_pc h (by rw [hpc]; simp)
      obtain ⟨g1, g2, g3, g4, g5, g6, g7, g8, g9, g10, g11, g12, g13, g14, g15, g16, g17, g18, g19, g20, g21, g22, g23, g24, g25, g26,
        g27, g28, g29⟩ := h
      simp only [hpc, bound] at g4 g5
      simp only [hpc, holds] at g14
      constructor <;> (try dsimp only [pcOk, holds, bound]) <;> first | assumption | grind | skip
  | last i =>
    have hok := h.ok
    simp only [hpc, pcOk] at hok
    simp only [starter, hpc] at hs
    split at hs
    · cases hst : startItem c s i with
      | none => simp [hst] at hs
      | some t =>
        simp only [hst, Option.map_some, Option.some.injEq] at hs; subst hs
        exact inv_startItem (p := .last (i + 1)) h (by omega) (by simp [hpc, bound]) (by simp [hpc, holds])
          (by simp [holds]) (by simp [bound]) (by simp only [pcOk]; omega) hst
    · cases hs
      obtain ⟨hne, hw⟩ := alive_pc h (by rw [hpc]; simp)
      obtain ⟨g1, g2, g3, g4, g5, g6, g7, g8, g9, g10, g11, g12, g13, g14, g15, g16, g17, g18, g19, g20, g21, g22, g23, g24, g25, g26,
        g27, g28, g29⟩ := h
      simp only [hpc, bound] at g4 g5
      simp only [hpc, holds] at g14
      constructor <;> (try dsimp only [pcOk, holds, bound]) <;> first | assumption | grind | skip
  | lockC i0 =>
    obtain ⟨hne, hw⟩ := alive_pc h (by rw [hpc]; simp)
    obtain ⟨g1, g2, g3, g4, g5, g6, g7, g8, g9, g10, g11, g12, g13, g14, g15, g16, g17, g18, g19, g20, g21, g22, g23, g24, g25, g26,
      g27, g28, g29⟩ := h
    simp only [starter, hpc] at hs
    simp only [hpc, bound] at g4 g5
    simp only [hpc, holds] at g14
    simp only [hpc, pcOk] at g1
    split at hs <;> cases hs
    constructor <;> (try dsimp only [pcOk, holds, bound]) <;> first | assumption | grind | skip
  | lockF =>
    obtain ⟨hne, hw⟩ := alive_pc h (by rw [hpc]; simp)
    obtain ⟨g1, g2, g3, g4, g5, g6, g7, g8, g9, g10, g11, g12, g13, g14, g15, g16, g17, g18, g19, g20, g21, g22, g23, g24, g25, g26,
      g27, g28, g29⟩ := h
    simp only [starter, hpc] at hs
    simp only [hpc, bound] at g4 g5
    simp only [hpc, holds] at g14
    split at hs <;> cases hs
    constructor <;> (try dsimp only [pcOk, holds, bound]) <;> first | assumption | grind | skip
  | flushC i0 =>
    obtain ⟨hne, hw⟩ := alive_pc h (by rw [hpc]; simp)
    have hfl := opens_flush (n := c.n) (item := s.item) (l := s.tasks) (fun i hi => (h.tasks i).1 hi)
    obtain ⟨g1, g2, g3, g4, g5, g6, g7, g8, g9, g10, g11, g12, g13, g14, g15, g16, g17, g18, g19, g20, g21, g22, g23, g24, g25, g26,
      g27, g28, g29⟩ := h
    simp only [starter, hpc] at hs
    simp only [hpc, bound] at g4 g5
    simp only [hpc, holds] at g14
    simp only [hpc, pcOk] at g1
    cases hs
    constructor <;> (try dsimp only [pcOk, holds, bound, flush]) <;> first | assumption | grind | skip
  | flushF =>
    obtain ⟨hne, hw⟩ := alive_pc h (by rw [hpc]; simp)
    have hfl := opens_flush (n := c.n) (item := s.item) (l := s.tasks) (fun i hi => (h.tasks i).1 hi)
    obtain ⟨g1, g2, g3, g4, g5, g6, g7, g8, g9, g10, g11, g12, g13, g14, g15, g16, g17, g18, g19, g20, g21, g22, g23, g24, g25, g26,
      g27, g28, g29⟩ := h
    simp only [starter, hpc] at hs
    simp only [hpc, bound] at g4 g5
    simp only [hpc, holds] at g14
    cases hs
    constructor <;> (try dsimp only [pcOk, holds, bound, flush]) <;> first | assumption | grind | skip
  | unlockC i0 =>
    obtain ⟨hne, hw⟩ := alive_pc h (by rw [hpc]; simp)
    obtain ⟨g1, g2, g3, g4, g5, g6, g7, g8, g9, g10, g11, g12, g13, g14, g15, g16, g17, g18, g19, g20, g21, g22, g23, g24, g25, g26,
      g27, g28, g29⟩ := h
    simp only [starter, hpc] at hs
    simp only [hpc, bound] at g4 g5
    simp only [hpc, holds] at g14
    simp only [hpc, pcOk] at g1
    cases hs
    rcases nextChunk_cases c (i0 + c.chunk) with ⟨hnc, hlt⟩ | hnc <;> rw [hnc] <;>
    constructor <;> (try dsimp only [pcOk, holds, bound, flush]) <;> first | assumption | grind | skip
  | unlockF =>
    obtain ⟨hne, hw⟩ := alive_pc h (by rw [hpc]; simp)
    obtain ⟨g1, g2, g3, g4, g5, g6, g7, g8, g9, g10, g11, g12, g13, g14, g15, g16, g17, g18, g19, g20, g21, g22, g23, g24, g25, g26,
      g27, g28, g29⟩ := h
    simp only [starter, hpc] at hs
    simp only [hpc, bound] at g4 g5
    simp only [hpc, holds] at g14
    cases hs
    constructor <;> (try dsimp only [pcOk, holds, bound, flush]) <;> first | assumption | grind | skip

theorem inv_destroy {c : Cfg} {s s' : St} (h : Inv c s) (hs : step c s .destroy = some s') : Inv c s' := by
  simp only [step] at hs; split at hs <;> cases hs
  rename_i hc
  obtain ⟨g1, g2, g3, g4, g5, g6, g7, g8, g9, g10, g11, g12, g13, g14, g15, g16, g17, g18, g19, g20, g21, g22, g23, g24, g25, g26,
    g27, g28, g29⟩ := h
  constructor <;> (try dsimp only) <;> first | assumption | grind | skip

theorem inv_step {c : Cfg} {s s' : St} {a : Act} (h : Inv c s) (hs : step c s a = some s') : Inv c s' := by
  cases a with
  | starter => exact inv_starter h hs
  | lateLock i => exact inv_lateLock h hs
  | lateTest i => exact inv_lateTest h hs
  | lateEnq i => exact inv_lateEnq h hs
  | lateSkip i => exact inv_lateSkip h hs
  | run i => exact inv_run h hs
  | done i => exact inv_done h hs
  | destroy => exact inv_destroy h hs

theorem inv_reach {c : Cfg} {s : St} (h : Reachable c s) : Inv c s :=
  Reach.inv (Inv c) (inv_init c) (fun _ _ _ hi he => inv_step hi he) s h

end Verif.SchedAll
