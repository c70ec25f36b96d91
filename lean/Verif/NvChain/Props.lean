import Verif.NvChain.Inv
/-!
# A chain on a GPU stream: property C88
-/
namespace Verif.NvChain

theorem any_congr' {p q : Nat → Bool} : ∀ {l : List Nat}, (∀ j, j ∈ l → p j = q j) → l.any p = l.any q
  | [], _ => rfl
  | k :: l, h => by
    rw [List.any_cons, List.any_cons, h k (by simp), any_congr' (fun j hj => h j (by simp [hj]))]

theorem range_rev_nodup (n : Nat) : (List.range n).reverse.Nodup :=
  (List.reverse_perm _).nodup_iff.2 List.nodup_range

/-- The stage's storage is freed by the destructor of its operation state. -/
def ownCond (s : St) (k : Nat) : Bool := decide (k ∉ s.buried ∧ s.mem k ≠ .none ∧ s.mem k ≠ .freed)

theorem fold_own (c : Cfg) : ∀ (l : List Nat) (s : St), l.Nodup →
    l.foldl (freeOwn c) s = { s with
      frees := s.frees ++ (l.filter (ownCond s)).map (fun k => (k, (c.stage k).mx))
      mem := fun j => if j ∈ l ∧ ownCond s j = true then .freed else s.mem j }
  | [], s, _ => by simp
  | k :: l, s, hn => by
    obtain ⟨h1, h2⟩ := List.nodup_cons.1 hn
    rw [List.foldl_cons, fold_own c l _ h2]
    by_cases hc : ownCond s k = true
    · have hc' := hc
      simp only [ownCond, decide_eq_true_eq] at hc'
      have e : freeOwn c s k = { s with frees := s.frees ++ [(k, (c.stage k).mx)], mem := upd s.mem k .freed } := by
        simp only [freeOwn]; rw [if_pos hc']
      have eo : ∀ j, j ≠ k → ownCond (freeOwn c s k) j = ownCond s j := by
        intro j hj; simp [ownCond, e, upd_other _ _ hj]
      have hf : l.filter (ownCond (freeOwn c s k)) = l.filter (ownCond s) := by
        apply List.filter_congr
        intro j hj
        exact eo j (by rintro rfl; exact h1 hj)
      rw [hf]
      simp only [List.filter_cons, hc, if_true, List.map_cons, e, List.append_assoc, List.singleton_append]
      congr 1
      funext j
      by_cases hj : j = k
      · subst hj; simp [h1, hc]
      · rw [← e, eo j hj]
        simp [hj, upd_other _ _ hj]
    · have hc' := hc
      simp only [ownCond, decide_eq_true_eq] at hc'
      have e : freeOwn c s k = s := by simp only [freeOwn]; rw [if_neg hc']
      rw [e]
      simp only [List.filter_cons, hc]
      congr 1
      funext j
      by_cases hj : j = k
      · subst hj; simp [h1, hc]
      · simp [hj]

def isObj : Cell → Bool
  | .obj _ => true
  | _ => false

theorem fold_rite (c : Cfg) : ∀ (l : List Nat) (s : St), l.Nodup →
    l.foldl (rite c) s = { s with
      frees := s.frees ++ l.map (fun k => (k, (c.stage k).sz))
      destroyed := s.destroyed ++ l
      mem := fun j => if j ∈ l then .freed else s.mem j
      badDestroy := s.badDestroy || l.any (fun k => !isObj (s.mem k)) }
  | [], s, _ => by simp
  | k :: l, s, hn => by
    obtain ⟨h1, h2⟩ := List.nodup_cons.1 hn
    rw [List.foldl_cons, fold_rite c l _ h2]
    have e : rite c s k = { s with frees := s.frees ++ [(k, (c.stage k).sz)], mem := upd s.mem k .freed
                                   destroyed := s.destroyed ++ [k], badDestroy := s.badDestroy || !isObj (s.mem k) } := by
      unfold rite
      cases hm : s.mem k <;> simp [isObj]
    have ha : l.any (fun j => !isObj (upd s.mem k .freed j)) = l.any (fun j => !isObj (s.mem j)) := by
      apply any_congr'
      intro j hj
      rw [upd_other _ _ (by rintro rfl; exact h1 hj)]
    rw [e]
    simp only [List.map_cons, List.append_assoc, List.singleton_append, List.any_cons, Bool.or_assoc, ha]
    congr 1
    funext j
    by_cases hj : j = k
    · subst hj; simp [h1]
    · simp [hj, upd_other _ _ hj]

/-- What holds when the operation state has been destroyed. -/
structure Gone (c : Cfg) (s : St) : Prop where
  freed : ∀ j, (s.frees.map (·.1)).count j = (s.allocs.map (·.1)).count j
  size : ∀ j z, (j, z) ∈ s.frees → z = (c.stage j).mx ∨ ((c.stage j).ret = .object ∧ z = (c.stage j).sz)
  destroyed : s.destroyed = s.buried
  badDestroy : s.badDestroy = true → ∃ j, j < c.n ∧ (c.stage j).kind = .thn ∧ (c.stage j).ret = .object ∧ c.launch j ≠ none

theorem destroy_eq (c : Cfg) {s : St} (hb : s.buried.Nodup) : destroyAll c s = { s with
    pc := .gone
    frees := s.frees ++ (((List.range c.n).reverse.filter (ownCond s)).map (fun k => (k, (c.stage k).mx)) ++
      s.buried.map (fun k => (k, (c.stage k).sz)))
    destroyed := s.destroyed ++ s.buried
    mem := fun j => if j ∈ s.buried then .freed
      else if j ∈ (List.range c.n).reverse ∧ ownCond s j = true then .freed else s.mem j
    badDestroy := s.badDestroy || s.buried.any (fun k => !isObj (s.mem k)) } := by
  have hr : (List.range c.n).reverse.Nodup := range_rev_nodup c.n
  have ha : s.buried.any (fun k => !isObj (if k ∈ (List.range c.n).reverse ∧ ownCond s k = true then .freed else s.mem k)) =
      s.buried.any (fun k => !isObj (s.mem k)) := by
    apply any_congr'
    intro j hj
    have : ownCond s j = false := by simp [ownCond, hj]
    simp [this]
  unfold destroyAll
  rw [fold_own c _ s hr]
  have h2 := fold_rite c s.buried { s with
      frees := s.frees ++ ((List.range c.n).reverse.filter (ownCond s)).map (fun k => (k, (c.stage k).mx))
      mem := fun j => if j ∈ (List.range c.n).reverse ∧ ownCond s j = true then .freed else s.mem j } hb
  rw [show ({ s with
      frees := s.frees ++ ((List.range c.n).reverse.filter (ownCond s)).map (fun k => (k, (c.stage k).mx))
      mem := fun j => if j ∈ (List.range c.n).reverse ∧ ownCond s j = true then .freed else s.mem j } : St).buried = s.buried
      from rfl, h2]
  simp only [ha, List.append_assoc]

theorem inv_destroy {c : Cfg} {s : St} (h : Inv c s) (hp : s.pc = .out) : Inv c (destroyAll c s) := by
  rw [destroy_eq c h.burNd]
  obtain ⟨h1, h2, h3, h4, h5, h6, h7, h8, h9, h10, h11, h12, h13, h14, h15, h16, h17, h18, h19, h20, h21, h22, h23⟩ := h
  constructor <;> (try dsimp only) <;> first | assumption | grind [ownCond] | skip

theorem gone_destroy {c : Cfg} {s : St} (h : Inv c s) (hp : s.pc = .out) (hbd : s.badDestroy = false) :
    Gone c (destroyAll c s) := by
  rw [destroy_eq c h.burNd]
  have hng : s.pc ≠ .gone := by rw [hp]; simp
  obtain ⟨n1, n2, n3⟩ := h.nofree hng
  have hq := (h.fin (.inl hp)).1
  constructor
  · intro j
    dsimp only
    rw [n2]
    simp only [List.nil_append, List.map_append, List.map_map, List.count_append, Function.comp_def]
    rw [List.map_id', List.map_id']
    have hr : ((List.range c.n).reverse.filter (ownCond s)).Nodup := (range_rev_nodup c.n).filter _
    have c1 : ∀ l : List Nat, l.Nodup → l.count j = if j ∈ l then 1 else 0 := by
      intro l hl
      by_cases hj : j ∈ l
      · rw [if_pos hj]
        have := List.nodup_iff_count.1 hl j
        have := List.count_pos_iff.2 hj
        omega
      · rw [if_neg hj, List.count_eq_zero]; exact hj
    rw [c1 _ hr, c1 _ h.burNd, c1 _ h.allocNd]
    have ha := h.alloc j
    have hlt : j ∈ s.allocs.map (·.1) → j < c.n := by
      intro hj
      obtain ⟨⟨a, z⟩, hm, rfl⟩ := List.mem_map.1 hj
      exact (h.allocSz a z hm).2
    have hb := h.bur j
    have hn := n1 j
    have hm : j ∈ (List.range c.n).reverse.filter (ownCond s) ↔ j < c.n ∧ j ∉ s.buried ∧ s.mem j ≠ .none ∧ s.mem j ≠ .freed := by
      simp [ownCond]
    by_cases hjb : j ∈ s.buried
    · have := (hb hjb).2.2.1
      rw [if_neg (by rw [hm]; exact fun x => x.2.1 hjb), if_pos hjb, if_pos (ha.2 this)]
    · by_cases hja : j ∈ s.allocs.map (·.1)
      · rw [if_pos (hm.2 ⟨hlt hja, hjb, ha.1 hja, hn⟩), if_neg hjb, if_pos hja]
      · rw [if_neg (by rw [hm]; exact fun x => hja (ha.2 x.2.2.1)), if_neg hjb, if_neg hja]
  · intro j z hz
    dsimp only at hz
    rw [n2, List.nil_append, List.mem_append] at hz
    rcases hz with hz | hz
    · obtain ⟨k, _, e⟩ := List.mem_map.1 hz
      cases e; exact .inl rfl
    · obtain ⟨k, hk, e⟩ := List.mem_map.1 hz
      cases e; exact .inr ⟨(h.bur _ hk).2.1, rfl⟩
  · dsimp only; rw [n3]; rfl
  · dsimp only
    rw [hbd, Bool.false_or, List.any_eq_true]
    rintro ⟨j, hj, hno⟩
    obtain ⟨b1, b2, b3, b4⟩ := h.bur j hj
    rcases b4 with b4 | b4
    · exfalso
      cases hv : s.val j with
      | none => exact b4 hv
      | some v =>
        have := h.vals hng j v hv
        rw [hq] at this
        simp only [List.map_nil, List.not_mem_nil, false_or] at this
        cases hm : s.mem j <;> simp_all [isObj]
    · exact ⟨j, b1, b4.1, b2, b4.2⟩

theorem inv_step {c : Cfg} {s s' : St} (a : Act) (h : Inv c s) (hs : step c s a = some s') : Inv c s' := by
  cases a with
  | host => exact inv_host h hs
  | dev => exact inv_dev h hs
  | destroy =>
    simp only [step] at hs; split at hs <;> cases hs
    rename_i hp; exact inv_destroy h hp

theorem bd_step {c : Cfg} {s s' : St} (a : Act) (ha : a ≠ .destroy) (hs : step c s a = some s') :
    s'.badDestroy = s.badDestroy ∧ (s'.pc = .gone → s.pc = .gone) := by
  cases a with
  | host =>
    simp only [step, hostStep, startStage, recv, defer, deliver] at hs
    (repeat' split at hs) <;> first | (cases hs; done) | (cases hs; simp_all; done) | (cases hs; constructor <;> grind)
  | dev =>
    simp only [step, devStep] at hs
    split at hs
    · cases hs
    · rename_i k a q hq
      cases hs
      simp only [writeRes]
      cases a with
      | none => simp only [readArg]; split <;> simp
      | temp j => simp only [readArg]; cases s.mem j <;> simp only <;> split <;> simp
      | host e => simp only [readArg]; cases s.frames <;> simp <;> split <;> simp
  | destroy => exact absurd rfl ha

structure Full (c : Cfg) (s : St) : Prop where
  inv : Inv c s
  bd : s.pc ≠ .gone → s.badDestroy = false
  gone : s.pc = .gone → Gone c s

theorem gone_stuck {c : Cfg} {s : St} (h : Inv c s) (hp : s.pc = .gone) (a : Act) : step c s a = none := by
  cases a with
  | host => simp [step, hostStep, hp]
  | dev => simp [step, devStep, (h.fin (.inr hp)).1]
  | destroy => simp [step, hp]

theorem full_reach {c : Cfg} {s : St} (h : Reachable c s) : Full c s := by
  refine Reach.inv (Full c) ?_ ?_ s h
  · refine ⟨inv_init c, fun _ => rfl, ?_⟩
    intro hp; simp only [init] at hp; split at hp <;> cases hp
  · intro s a s' hi hs
    by_cases hg : s.pc = .gone
    · rw [gone_stuck hi.inv hg] at hs; cases hs
    by_cases ha : a = .destroy
    · subst ha
      simp only [step] at hs; split at hs <;> cases hs
      rename_i hp
      refine ⟨inv_destroy hi.inv hp, fun h => absurd rfl h, fun _ => gone_destroy hi.inv hp (hi.bd hg)⟩
    · obtain ⟨b1, b2⟩ := bd_step a ha hs
      refine ⟨inv_step a hi.inv hs, fun _ => by rw [b1]; exact hi.bd hg, fun h => absurd (b2 h) hg⟩

/-- **C88** (partial: unless there is an `upon_error` and the stream is synchronised only after the last receiver has
returned): what the chain completes with is the specified result. -/
theorem C88_result_partial {c : Cfg} {s : St} (h : Reachable c s) (hn : c.syncs = true ∨ ¬UE c) {r : PSig}
    (hr : s.result = some r) : r = expected c := by
  have hi := (full_reach h).inv
  rcases hi.result r hr with h1 | h1
  · exact h1
  · have := hi.dang h1
    rcases hn with hn | hn
    · rw [this.1] at hn; cases hn
    · exact absurd this.2 hn

/-- **C88**: no kernel, and not the reader of the result, ever uses storage that is not allocated or contains no object. -/
theorem C88_storage {c : Cfg} {s : St} (h : Reachable c s) : s.bad = false := (full_reach h).inv.bad

/-- **C88** (same proviso as C88_result_partial): no kernel uses a variable of a function that has returned. -/
theorem C88_no_dangling_partial {c : Cfg} {s : St} (h : Reachable c s) (hn : c.syncs = true ∨ ¬UE c) :
    s.dangling = false := by
  cases hd : s.dangling with
  | false => rfl
  | true =>
    have := (full_reach h).inv.dang hd
    rcases hn with hn | hn
    · rw [this.1] at hn; cases hn
    · exact absurd this.2 hn

/-- **C88**: in the end the storage of every stage that was allocated has been freed exactly once. -/
theorem C88_freed {c : Cfg} {s : St} (h : Reachable c s) (hg : s.pc = .gone) (j : Nat) :
    (s.frees.map (·.1)).count j = (s.allocs.map (·.1)).count j ∧ (s.allocs.map (·.1)).count j ≤ 1 :=
  ⟨((full_reach h).gone hg).freed j, List.nodup_iff_count.1 (full_reach h).inv.allocNd j⟩

/-- **C88** (partial: unless the result of a stage is smaller than the largest one it can have, and must be destroyed): it
is freed with the size it was allocated with. -/
theorem C88_size_partial {c : Cfg} {s : St} (h : Reachable c s) (hg : s.pc = .gone)
    (hz : ∀ j, j < c.n → (c.stage j).ret = .object → (c.stage j).sz = (c.stage j).mx) {j z z' : Nat}
    (h1 : (j, z) ∈ s.frees) (h2 : (j, z') ∈ s.allocs) : z = z' := by
  obtain ⟨e1, e2⟩ := (full_reach h).inv.allocSz j z' h2
  rcases ((full_reach h).gone hg).size j z h1 with e | ⟨e, e'⟩
  · rw [e, e1]
  · rw [e', e1, hz j e2 e]

/-- **C88**: in the end every result that was computed and needs a destructor has been destroyed exactly once. -/
theorem C88_destroyed {c : Cfg} {s : St} (h : Reachable c s) (hg : s.pc = .gone) {j : Nat} (hv : s.val j ≠ none)
    (hr : (c.stage j).ret = .object) : s.destroyed.count j = 1 := by
  have hi := (full_reach h).inv
  rw [((full_reach h).gone hg).destroyed]
  have := List.nodup_iff_count.1 hi.burNd j
  have := List.count_pos_iff.2 (hi.burAll j hv hr)
  omega

/-- **C88** (partial: unless launching the kernel of a `then` with such a result failed): nothing is destroyed that was
not constructed. -/
theorem C88_no_bad_destroy_partial {c : Cfg} {s : St} (h : Reachable c s)
    (hl : ∀ j, j < c.n → (c.stage j).kind = .thn → (c.stage j).ret = .object → c.launch j = none) :
    s.badDestroy = false := by
  by_cases hg : s.pc = .gone
  · cases hb : s.badDestroy with
    | false => rfl
    | true =>
      obtain ⟨j, h1, h2, h3, h4⟩ := ((full_reach h).gone hg).badDestroy hb
      exact absurd (hl j h1 h2 h3) h4
  · exact (full_reach h).bd hg

/-- **C88**: until it is destroyed, the operation can go on. -/
theorem C88_never_stuck {c : Cfg} {s : St} (h : Reachable c s) (hg : s.pc ≠ .gone) : ∃ a s', step c s a = some s' := by
  cases hq : s.queue with
  | cons x q => obtain ⟨k, a⟩ := x; exact ⟨.dev, by simp [step, devStep, hq]⟩
  | nil =>
    by_cases ho : s.pc = .out
    · exact ⟨.destroy, by simp [step, ho]⟩
    · refine ⟨.host, ?_⟩
      simp only [step, hostStep]
      cases hp : s.pc with
      | start k => cases k <;> simp
      | «at» k sig => simp only; split <;> simp
      | term sig => simp only [hq]; split <;> simp
      | handed sig => simp [hq]
      | out => exact absurd hp ho
      | gone => exact absurd hp hg

/-- Steps the host has to make, those of the device that they cause included. -/
def hostLeft (n : Nat) : Pc → Nat
  | .start k => 2 * n + k + 5
  | .at k _ => 2 * (n - k) + 4
  | .term _ => 3
  | .handed _ => 2
  | .out => 1
  | .gone => 0

def left (c : Cfg) (s : St) : Nat := hostLeft c.n s.pc + s.queue.length

theorem left_step {c : Cfg} {s s' : St} (a : Act) (h : Inv c s) (hs : step c s a = some s') : left c s' < left c s := by
  cases a with
  | host =>
    have hst := h.start
    have hat := h.atk
    simp only [step, hostStep] at hs
    cases hp : s.pc with
    | start k =>
      have := (hst k hp).2.1
      cases k with
      | zero => simp only [hp] at hs; cases hs; simp [left, hp, hostLeft]
      | succ k =>
        simp only [hp, startStage] at hs
        (repeat' split at hs) <;> cases hs <;> simp [left, hp, hostLeft] <;> omega
    | «at» k sig =>
      have := (hat k sig hp).1
      simp only [hp, recv, defer] at hs
      (repeat' split at hs) <;> cases hs <;> simp [left, hp, hostLeft] <;> omega
    | term sig =>
      simp only [hp, deliver] at hs
      (repeat' split at hs) <;> first | (cases hs; done) | (cases hs; simp [left, hp, hostLeft])
    | handed sig =>
      simp only [hp, deliver] at hs
      (repeat' split at hs) <;> first | (cases hs; done) | (cases hs; simp [left, hp, hostLeft])
    | out => simp [hp] at hs
    | gone => simp [hp] at hs
  | dev =>
    simp only [step, devStep] at hs
    split at hs
    · cases hs
    · rename_i k a q hq
      cases hs
      simp only [left, hq, List.length_cons, writeRes]
      cases a with
      | none => simp only [readArg]; split <;> simp
      | temp j => simp only [readArg]; cases s.mem j <;> simp only <;> split <;> simp
      | host e => simp only [readArg]; cases s.frames <;> simp <;> split <;> simp
  | destroy =>
    simp only [step] at hs; split at hs <;> cases hs
    rename_i hp
    have := (h.fin (.inl hp)).1
    rw [destroy_eq c h.burNd]
    simp [left, hp, hostLeft]

/-- **C88**: no execution takes more than `3n + 5` steps. -/
theorem C88_terminates {c : Cfg} {s : St} (as : List Act) (he : exec (step c) (init c) as = some s) :
    as.length ≤ 3 * c.n + 5 := by
  have := run_bound (step := step c) (fun _ => true) (Inv c) (left c)
    (fun s a s' hp _ hs => ⟨inv_step a hp hs, left_step a hp hs⟩) as (init c) s (inv_init c) (by simp) he
  refine Nat.le_trans this ?_
  simp only [left, init]
  split <;> simp [hostLeft] <;> omega

/-- **C88**: so every chain reaches its end, and then it has a result. -/
theorem C88_end (c : Cfg) : ∃ s, Reachable c s ∧ s.pc = .gone ∧ s.result ≠ none := by
  obtain ⟨as, s, _, he, hst⟩ := run_to_stuck (step := step c) (fun _ => true) (init c) (3 * c.n + 5)
    (fun as s' _ h => C88_terminates as h)
  have hr : Reachable c s := Reach.of_exec _ he
  have hg : s.pc = .gone := by
    apply Classical.byContradiction
    intro hg
    obtain ⟨a, s', h1⟩ := C88_never_stuck hr hg
    rw [hst a rfl] at h1; cases h1
  exact ⟨s, hr, hg, ((full_reach hr).inv.fin (.inr hg)).2⟩

/-- A chain of one `then` whose result has a destructor, and whose launch fails. -/
def badCfg : Cfg where
  n := 1
  stage := fun _ => { kind := .thn, ret := .object, f := fun x => x + 1, sz := 8, mx := 16 }
  head := .value
  status := 0
  launch := fun _ => some 9
  noMem := fun _ => false
  syncs := true

/-- **C88** is false without the proviso of C88_no_bad_destroy_partial: `then` leaves the destruction of its result to the
stream before it looks whether the kernel that constructs it was launched. -/
theorem C88_violated_destroy : ∃ s, Reachable badCfg s ∧ s.result = some (.error 9) ∧ s.badDestroy = true := by
  have := Reach.witness (init := init badCfg) (step := step badCfg)
    [.host, .host, .host, .host, .host, .destroy]
    (fun s : St => decide (s.result = some (.error 9) ∧ s.badDestroy = true)) (by decide)
  obtain ⟨s, hr, hp⟩ := this
  exact ⟨s, hr, of_decide_eq_true hp⟩

/-- **C88** is false without the proviso of C88_size_partial: allocated with the size of the largest result, freed with
that of the actual one. -/
theorem C88_violated_size : ∃ s, Reachable { badCfg with launch := fun _ => none } s ∧ s.result = some (.value (some 1)) ∧
    s.allocs = [(0, 16)] ∧ s.frees = [(0, 8)] := by
  have := Reach.witness (init := init { badCfg with launch := fun _ => none }) (step := step { badCfg with launch := fun _ => none })
    [.host, .host, .host, .host, .dev, .host, .destroy]
    (fun s : St => decide (s.result = some (.value (some 1)) ∧ s.allocs = [(0, 16)] ∧ s.frees = [(0, 8)])) (by decide)
  obtain ⟨s, hr, hp⟩ := this
  exact ⟨s, hr, of_decide_eq_true hp⟩

/-- `upon_error` on a head that fails; the stream is synchronised later. -/
def ueCfg : Cfg where
  n := 1
  stage := fun _ => { kind := .uponError, ret := .trivial, f := fun x => x + 1, sz := 8, mx := 8 }
  head := .error 6
  status := 0
  launch := fun _ => none
  noMem := fun _ => false
  syncs := false

/-- **C88** is false without the proviso of C88_result_partial: the kernel of `upon_error` reads the error from the
host's stack, after the function has returned, and the result is another. -/
theorem C88_violated_dangling : ∃ s, Reachable ueCfg s ∧ s.dangling = true ∧ expected ueCfg = .value (some 7) ∧
    s.result = some (.value (some 1)) := by
  have := Reach.witness (init := init ueCfg) (step := step ueCfg)
    [.host, .host, .host, .host, .host, .dev, .host]
    (fun s : St => decide (s.dangling = true ∧ expected ueCfg = .value (some 7) ∧ s.result = some (.value (some 1)))) (by decide)
  obtain ⟨s, hr, hp⟩ := this
  exact ⟨s, hr, of_decide_eq_true hp⟩

/-- Four stages: `then`, `upon_error`, `then`, `then`; the second launch does not happen, the third fails… -/
def exCfg : Cfg where
  n := 4
  stage := fun k => { kind := if k = 1 ∨ k = 3 then .uponError else .thn
                      ret := if k = 0 then .object else .trivial, f := fun x => 10 * x + k + 1, sz := 8, mx := 8 }
  head := .value
  status := 0
  launch := fun k => if k = 2 then some 5 else none
  noMem := fun _ => false
  syncs := true

/-- Not vacuous: …and `upon_error` turns the error 5 into the value 54; two kernels were enqueued before the first ran. -/
example : ∃ s, Reachable exCfg s ∧ s.pc = .gone ∧ s.result = some (.value (some 54)) ∧ s.destroyed = [0] ∧
    s.badDestroy = false ∧ s.val 0 ≠ none := by
  have := Reach.witness (init := init exCfg) (step := step exCfg)
    [.host, .host, .host, .host, .host, .host, .host, .host, .host, .host, .dev, .dev, .host, .destroy]
    (fun s : St => decide (s.pc = .gone ∧ s.result = some (.value (some 54)) ∧ s.destroyed = [0] ∧ s.badDestroy = false ∧
      s.val 0 ≠ none)) (by decide)
  obtain ⟨s, hr, hp⟩ := this
  exact ⟨s, hr, of_decide_eq_true hp⟩

/-- The specification on that chain. -/
example : expected exCfg = .value (some 54) := by decide

end Verif.NvChain
