import Verif.NvChain.Model
/-!
# A chain on a GPU stream: specification and invariant (C88)
-/
namespace Verif.NvChain

/-- The specification of one stage: the function is called for its signal, its result is a value; other signals pass; a
failed launch is an error. -/
def pstage (c : Cfg) (k : Nat) (sig : PSig) : PSig :=
  let call (x : Nat) : PSig := match c.launch k with
    | some e => .error e
    | none => .value (if (c.stage k).ret = .void then none else some ((c.stage k).f x))
  match (c.stage k).kind, sig with
  | .thn, .value v => call (v.getD 0)
  | .uponError, .error e => call e
  | .uponStopped, .stopped => call 0
  | _, sig => sig

/-- The completion of the head. -/
def Head.psig : Head → PSig
  | .value => .value none
  | .error e => .error e
  | .stopped => .stopped

/-- The specification: what enters stage `k` when the stages from `k` on have been started. If memory is missing for one of
them, the head is not started. -/
def enters (c : Cfg) : Nat → PSig
  | 0 => c.head.psig
  | k + 1 => if (c.stage k).ret ≠ .void ∧ c.noMem k = true then .error 2 else pstage c k (enters c k)

/-- The specification: what the chain completes with. -/
def expected (c : Cfg) : PSig := if c.status ≠ 0 then .error c.status else enters c c.n

/-- The chain has an `upon_error`. -/
def UE (c : Cfg) : Prop := ∃ k, k < c.n ∧ (c.stage k).kind = .uponError

/-- What has reached stage `k`. -/
def E (c : Cfg) (k : Nat) : PSig := if c.status ≠ 0 then .error c.status else enters c k

/-- The host's signal stands for this result. -/
def abs (val : Nat → Option Nat) : Sig → PSig
  | .value none => .value none
  | .value (some j) => .value (some ((val j).getD 0))
  | .error e => .error e
  | .stopped => .stopped

/-- The storage a signal refers to was launched. -/
def okSig (val : Nat → Option Nat) : Sig → Prop
  | .value (some j) => val j ≠ none
  | _ => True

/-- The argument of the kernel of stage `k` was launched before. -/
def okArg (c : Cfg) (val : Nat → Option Nat) (k : Nat) : Arg → Prop
  | .none => True
  | .temp j => j < k ∧ val j ≠ none
  | .host _ => (c.stage k).kind = .uponError

structure Inv (c : Cfg) (s : St) : Prop where
  start : ∀ k, s.pc = .start k → c.status = 0 ∧ k ≤ c.n ∧ s.queue = [] ∧ s.buried = [] ∧
    (∀ j, k ≤ j → j < c.n → c.needs j = true → s.mem j = .alloc ∧ c.noMem j = false) ∧
    ∀ j, j < k → s.mem j = .none
  startv : ∀ k, s.pc = .start k → ∀ j, s.val j = none
  atk : ∀ k sig, s.pc = .at k sig → k ≤ c.n ∧ okSig s.val sig ∧ abs s.val sig = E c k ∧
    (∀ j, k ≤ j → j < c.n → c.needs j = true → s.mem j = .alloc ∧ c.noMem j = false) ∧ (k < c.n → c.status = 0)
  atq : ∀ k sig, s.pc = .at k sig → (∀ j, j ∈ s.queue.map (·.1) → j < k) ∧ (∀ j, s.val j ≠ none → j < k) ∧
    ∀ j, j ∈ s.buried → j < k
  term : ∀ sig, s.pc = .term sig ∨ s.pc = .handed sig → okSig s.val sig ∧ abs s.val sig = expected c
  handed : ∀ sig, s.pc = .handed sig → c.syncs = false
  fin : s.pc = .out ∨ s.pc = .gone → s.queue = [] ∧ s.result ≠ none
  sorted : s.queue.Pairwise (fun a b => a.1 < b.1)
  qargs : ∀ k a, (k, a) ∈ s.queue → k < c.n ∧ okArg c s.val k a ∧
    (c.needs k = true → s.mem k = .alloc ∧ s.val k = some ((c.stage k).f (absArg s.val a)))
  vneeds : ∀ j, s.val j ≠ none → j < c.n ∧ c.needs j = true
  vals : s.pc ≠ .gone → ∀ j v, s.val j = some v → j ∈ s.queue.map (·.1) ∨ s.mem j = .obj v ∨
    (s.dangling = true ∧ s.mem j ≠ .none ∧ s.mem j ≠ .alloc ∧ s.mem j ≠ .freed)
  objs : ∀ j v, s.mem j = .obj v → s.val j ≠ none
  nofree : s.pc ≠ .gone → (∀ j, s.mem j ≠ .freed) ∧ s.frees = [] ∧ s.destroyed = []
  bad : s.bad = false
  frames : s.frames = false → (∃ sig, s.pc = .handed sig) ∨ s.pc = .out ∨ s.pc = .gone
  dang : s.dangling = true → c.syncs = false ∧ UE c
  bur : ∀ j, j ∈ s.buried → j < c.n ∧ (c.stage j).ret = .object ∧ s.mem j ≠ .none ∧
    (s.val j ≠ none ∨ ((c.stage j).kind = .thn ∧ c.launch j ≠ none))
  burNd : s.buried.Nodup
  burAll : ∀ j, s.val j ≠ none → (c.stage j).ret = .object → j ∈ s.buried
  result : ∀ r, s.result = some r → r = expected c ∨ s.dangling = true
  allocNd : (s.allocs.map (·.1)).Nodup
  alloc : ∀ j, j ∈ s.allocs.map (·.1) ↔ s.mem j ≠ .none
  allocSz : ∀ j z, (j, z) ∈ s.allocs → z = (c.stage j).mx ∧ j < c.n

theorem inv_init (c : Cfg) : Inv c (init c) := by
  by_cases h : c.status = 0 <;> constructor <;> simp [init, h, okSig, abs, E] <;> omega

set_option maxHeartbeats 4000000 in
theorem inv_start {c : Cfg} {s s' : St} {k : Nat} (h : Inv c s) (hp : s.pc = .start k)
    (hs : hostStep c s = some s') : Inv c s' := by
  obtain ⟨h1, h2, h3, h4, h5, h6⟩ := h.start k hp
  have h8 := h.startv k hp
  cases k with
  | zero =>
    simp only [hostStep, hp, Option.some.injEq] at hs
    subst hs
    have he : abs s.val c.head.sig = E c 0 ∧ okSig s.val c.head.sig := by
      cases hh : c.head <;> simp [abs, okSig, E, h1, enters, Head.sig, Head.psig, hh]
    obtain ⟨h1, h2, h3, h4, h5, h6, h7, h8, h9, h10, h11, h12, h13, h14, h15, h16, h17, h18, h19, h20, h21, h22, h23⟩ := h
    constructor <;> (try dsimp only) <;> first | assumption | grind | skip
  | succ k =>
    simp only [hostStep, hp, startStage] at hs
    have he : c.needs k = true → c.noMem k = true → E c (k + 1) = .error 2 := by
      intro a b; simp [E, h1, enters, b]; simp [Cfg.needs] at a; simp [a]
    split at hs
    · split at hs
      · simp only [Option.some.injEq] at hs
        subst hs
        obtain ⟨h1, h2, h3, h4, h5, h6, h7, h8, h9, h10, h11, h12, h13, h14, h15, h16, h17, h18, h19, h20, h21, h22, h23⟩ := h
        constructor <;> (try dsimp only) <;> first | assumption | grind [abs, okSig] | skip
      · simp only [Option.some.injEq] at hs
        subst hs
        have hk := h.alloc k
        obtain ⟨h1, h2, h3, h4, h5, h6, h7, h8, h9, h10, h11, h12, h13, h14, h15, h16, h17, h18, h19, h20, h21, h22, h23⟩ := h
        constructor <;> (try dsimp only) <;> first | assumption | grind | skip
    · simp only [Option.some.injEq] at hs
      subst hs
      obtain ⟨h1, h2, h3, h4, h5, h6, h7, h8, h9, h10, h11, h12, h13, h14, h15, h16, h17, h18, h19, h20, h21, h22, h23⟩ := h
      constructor <;> (try dsimp only) <;> first | assumption | grind | skip

theorem handles_none {c : Cfg} {k : Nat} {val : Nat → Option Nat} {sig : Sig}
    (h : handles (c.stage k).kind sig = none) : pstage c k (abs val sig) = abs val sig := by
  cases hk : (c.stage k).kind <;> rcases sig with (_ | j) | e | _ <;> simp_all [handles, pstage, abs]

theorem handles_fail {c : Cfg} {k : Nat} {val : Nat → Option Nat} {sig : Sig} {a : Arg} {e : Nat}
    (h : handles (c.stage k).kind sig = some a) (hl : c.launch k = some e) : pstage c k (abs val sig) = .error e := by
  cases hk : (c.stage k).kind <;> rcases sig with (_ | j) | e | _ <;> simp_all [handles, pstage, abs]

theorem handles_ok {c : Cfg} {k : Nat} {val : Nat → Option Nat} {sig : Sig} {a : Arg}
    (h : handles (c.stage k).kind sig = some a) (hl : c.launch k = none) :
    pstage c k (abs val sig) =
      .value (if (c.stage k).ret = .void then none else some ((c.stage k).f (absArg val a))) := by
  cases hk : (c.stage k).kind <;> rcases sig with (_ | j) | e | _ <;> simp_all [handles, pstage, abs] <;>
    subst h <;> simp [absArg]

theorem handles_arg {c : Cfg} {k : Nat} {val : Nat → Option Nat} {sig : Sig} {a : Arg}
    (h : handles (c.stage k).kind sig = some a) (ho : okSig val sig) (hv : ∀ j, val j ≠ none → j < k) : okArg c val k a := by
  cases hk : (c.stage k).kind <;> rcases sig with (_ | j) | e | _ <;> simp_all [handles, okSig] <;>
    subst h <;> simp_all [okArg]

theorem E_succ {c : Cfg} {k : Nat} (hs : c.status = 0) (hm : c.needs k = true → c.noMem k = false) :
    E c (k + 1) = pstage c k (E c k) := by
  have : ¬((c.stage k).ret ≠ .void ∧ c.noMem k = true) := by
    rintro ⟨h1, h2⟩
    have := hm (by simp [Cfg.needs, h1])
    rw [h2] at this; cases this
  simp only [E, hs, enters]
  simp [this]

theorem absArg_upd {c : Cfg} {val : Nat → Option Nat} {k j x : Nat} {a : Arg} (ho : okArg c val j a) (hk : val k = none) :
    absArg (upd val k (some x)) a = absArg val a := by
  cases a with
  | none => rfl
  | temp i =>
    have : i ≠ k := by rintro rfl; exact ho.2 hk
    simp [absArg, upd_other _ _ this]
  | host e => rfl

theorem okArg_upd {c : Cfg} {val : Nat → Option Nat} {k j x : Nat} {a : Arg} (ho : okArg c val j a) :
    okArg c (upd val k (some x)) j a := by
  cases a with
  | none => trivial
  | temp i =>
    refine ⟨ho.1, ?_⟩
    by_cases h : i = k
    · subst h; simp
    · rw [upd_other _ _ h]; exact ho.2
  | host e => exact ho

set_option maxHeartbeats 8000000 in
theorem inv_recv {c : Cfg} {s : St} {k : Nat} {sig : Sig} (h : Inv c s) (hp : s.pc = .at k sig) (hk : k < c.n) :
    Inv c (recv c s k sig) := by
  obtain ⟨g1, g2, g3, g4, g5⟩ := h.atk k sig hp
  obtain ⟨g6, g7, g8⟩ := h.atq k sig hp
  have hE : E c (k + 1) = pstage c k (E c k) :=
    E_succ (g5 hk) (fun hn => (g4 k (Nat.le_refl _) hk hn).2)
  rw [← g3] at hE
  have hvk : s.val k = none := by
    cases hv : s.val k with
    | none => rfl
    | some v => exact absurd (g7 k (by rw [hv]; simp)) (Nat.lt_irrefl _)
  have hbk : k ∉ s.buried := fun hb => absurd (g8 k hb) (Nat.lt_irrefl _)
  have hob : (c.stage k).ret = .object → c.needs k = true := by intro h; simp [Cfg.needs, h]
  have hqk : k ∉ s.queue.map (·.1) := fun hb => absurd (g6 k hb) (Nat.lt_irrefl _)
  unfold recv
  split
  · rename_i hh
    have := handles_none (val := s.val) hh
    obtain ⟨h1, h2, h3, h4, h5, h6, h7, h8, h9, h10, h11, h12, h13, h14, h15, h16, h17, h18, h19, h20, h21, h22, h23⟩ := h
    constructor <;> (try dsimp only) <;> first | assumption | grind | skip
  · rename_i a hh
    split
    · rename_i e hl
      have := handles_fail (val := s.val) hh hl
      have ha : abs s.val (.error e) = .error e := rfl
      have hb : okSig s.val (.error e) := trivial
      simp only [defer]
      split
      · rename_i hkt
        split
        · rename_i hr
          have hnk := hob hr
          obtain ⟨h1, h2, h3, h4, h5, h6, h7, h8, h9, h10, h11, h12, h13, h14, h15, h16, h17, h18, h19, h20, h21, h22, h23⟩ := h
          constructor <;> (try dsimp only) <;> first | assumption | grind | skip
        · obtain ⟨h1, h2, h3, h4, h5, h6, h7, h8, h9, h10, h11, h12, h13, h14, h15, h16, h17, h18, h19, h20, h21, h22, h23⟩ := h
          constructor <;> (try dsimp only) <;> first | assumption | grind | skip
      · obtain ⟨h1, h2, h3, h4, h5, h6, h7, h8, h9, h10, h11, h12, h13, h14, h15, h16, h17, h18, h19, h20, h21, h22, h23⟩ := h
        constructor <;> (try dsimp only) <;> first | assumption | grind | skip
    · rename_i hl
      have hps := handles_ok (val := s.val) hh hl
      have hoa := handles_arg hh g2 g7
      cases hn : c.needs k with
      | false =>
        have hv : (c.stage k).ret = .void := by simpa [Cfg.needs] using hn
        rw [if_pos hv] at hps
        have ha : abs s.val (.value none) = .value none := rfl
        have hb : okSig s.val (.value none) := trivial
        simp only [defer, hv, Bool.false_eq_true, if_false]
        obtain ⟨h1, h2, h3, h4, h5, h6, h7, h8, h9, h10, h11, h12, h13, h14, h15, h16, h17, h18, h19, h20, h21, h22, h23⟩ := h
        constructor <;> (try dsimp only) <;> first | assumption | grind | skip
      | true =>
        have hv : (c.stage k).ret ≠ .void := by simpa [Cfg.needs] using hn
        rw [if_neg hv] at hps
        have ha : abs (upd s.val k (some ((c.stage k).f (absArg s.val a)))) (.value (some k)) =
            .value (some ((c.stage k).f (absArg s.val a))) := by simp [abs]
        have hb : okSig (upd s.val k (some ((c.stage k).f (absArg s.val a)))) (.value (some k)) := by simp [okSig]
        have hc := fun j b (x : okArg c s.val j b) => absArg_upd (x := (c.stage k).f (absArg s.val a)) x hvk
        have hd := fun j b (x : okArg c s.val j b) => okArg_upd (k := k) (x := (c.stage k).f (absArg s.val a)) x
        simp only [defer, if_true]
        split
        · obtain ⟨h1, h2, h3, h4, h5, h6, h7, h8, h9, h10, h11, h12, h13, h14, h15, h16, h17, h18, h19, h20, h21, h22, h23⟩ := h
          constructor <;> (try dsimp only) <;> first | assumption | grind | skip
        · obtain ⟨h1, h2, h3, h4, h5, h6, h7, h8, h9, h10, h11, h12, h13, h14, h15, h16, h17, h18, h19, h20, h21, h22, h23⟩ := h
          constructor <;> (try dsimp only) <;> first | assumption | grind | skip

theorem E_n (c : Cfg) : E c c.n = expected c := rfl

set_option maxHeartbeats 4000000 in
theorem inv_deliver {c : Cfg} {s : St} {sig : Sig} (h : Inv c s) (hp : s.pc = .term sig ∨ s.pc = .handed sig)
    (hq : s.queue = []) : Inv c (deliver s sig) := by
  obtain ⟨g1, g2⟩ := h.term sig hp
  have hng : s.pc ≠ .gone := by rintro hg; rcases hp with hp | hp <;> rw [hg] at hp <;> cases hp
  have hv := h.vals hng
  rw [hq] at hv
  rcases sig with (_ | j) | e | _
  · have ha : abs s.val (.value none) = .value none := rfl
    simp only [deliver]
    obtain ⟨h1, h2, h3, h4, h5, h6, h7, h8, h9, h10, h11, h12, h13, h14, h15, h16, h17, h18, h19, h20, h21, h22, h23⟩ := h
    constructor <;> (try dsimp only) <;> first | assumption | grind | skip
  · cases hj : s.val j with
    | none => exact absurd hj g1
    | some v =>
      have ha : abs s.val (.value (some j)) = .value (some v) := by simp [abs, hj]
      have hvj := hv j v hj
      simp only [deliver]
      cases hm : s.mem j with
      | obj w =>
        simp only
        obtain ⟨h1, h2, h3, h4, h5, h6, h7, h8, h9, h10, h11, h12, h13, h14, h15, h16, h17, h18, h19, h20, h21, h22, h23⟩ := h
        constructor <;> (try dsimp only) <;> first | assumption | grind | skip
      | none => simp [hm] at hvj
      | alloc => simp [hm] at hvj
      | freed => simp [hm] at hvj
  · have ha : abs s.val (.error e) = .error e := rfl
    simp only [deliver]
    obtain ⟨h1, h2, h3, h4, h5, h6, h7, h8, h9, h10, h11, h12, h13, h14, h15, h16, h17, h18, h19, h20, h21, h22, h23⟩ := h
    constructor <;> (try dsimp only) <;> first | assumption | grind | skip
  · have ha : abs s.val .stopped = .stopped := rfl
    simp only [deliver]
    obtain ⟨h1, h2, h3, h4, h5, h6, h7, h8, h9, h10, h11, h12, h13, h14, h15, h16, h17, h18, h19, h20, h21, h22, h23⟩ := h
    constructor <;> (try dsimp only) <;> first | assumption | grind | skip

theorem inv_host {c : Cfg} {s s' : St} (h : Inv c s) (hs : hostStep c s = some s') : Inv c s' := by
  cases hp : s.pc with
  | start k => exact inv_start h hp hs
  | «at» k sig =>
    simp only [hostStep, hp] at hs
    split at hs
    · rename_i hk
      cases hs; exact inv_recv h hp hk
    · rename_i hk
      cases hs
      have hkn : k = c.n := by have := (h.atk k sig hp).1; omega
      subst hkn
      have hen := E_n c
      obtain ⟨g1, g2, g3, g4, g5⟩ := h.atk c.n sig hp
      obtain ⟨h1, h2, h3, h4, h5, h6, h7, h8, h9, h10, h11, h12, h13, h14, h15, h16, h17, h18, h19, h20, h21, h22, h23⟩ := h
      constructor <;> (try dsimp only) <;> first | assumption | grind | skip
  | term sig =>
    simp only [hostStep, hp] at hs
    split at hs
    · split at hs
      · rename_i hq
        cases hs; exact inv_deliver h (.inl hp) hq
      · cases hs
    · cases hs
      obtain ⟨h1, h2, h3, h4, h5, h6, h7, h8, h9, h10, h11, h12, h13, h14, h15, h16, h17, h18, h19, h20, h21, h22, h23⟩ := h
      constructor <;> (try dsimp only) <;> first | assumption | grind | skip
  | handed sig =>
    simp only [hostStep, hp] at hs
    split at hs
    · rename_i hq
      cases hs; exact inv_deliver h (.inr hp) hq
    · cases hs
  | out => simp [hostStep, hp] at hs
  | gone => simp [hostStep, hp] at hs

set_option maxHeartbeats 8000000 in
theorem inv_dev {c : Cfg} {s s' : St} (h : Inv c s) (hs : devStep c s = some s') : Inv c s' := by
  simp only [devStep] at hs
  split at hs
  · cases hs
  · rename_i k a q hq
    simp only [Option.some.injEq] at hs
    subst hs
    have hpc : s.pc ≠ .out ∧ s.pc ≠ .gone := by
      constructor
      · intro hp; have := (h.fin (.inl hp)).1; rw [hq] at this; cases this
      · intro hp; have := (h.fin (.inr hp)).1; rw [hq] at this; cases this
    have hpst : ∀ i, s.pc ≠ .start i := by
      intro i hp; have := (h.start i hp).2.2.1; rw [hq] at this; cases this
    obtain ⟨k1, k2, k3⟩ := h.qargs k a (by rw [hq]; simp)
    have hso := h.sorted
    rw [hq, List.pairwise_cons] at hso
    have hkq : ∀ j, j ∈ q.map (·.1) → k < j := by
      intro j hj
      obtain ⟨b, hb, rfl⟩ := List.mem_map.1 hj
      exact hso.1 b hb
    have hvals := h.vals hpc.2
    -- the argument
    have hread : ∃ s1 w, readArg { s with queue := q } a = (s1, w) ∧
        s1 = { s with queue := q, dangling := s1.dangling } ∧ (s1.dangling = true → s.dangling = true ∨ (c.syncs = false ∧ UE c)) ∧
        (s.dangling = true → s1.dangling = true) ∧ (w = absArg s.val a ∨ s1.dangling = true) := by
      cases a with
      | none => exact ⟨_, _, rfl, rfl, fun h => .inl h, id, .inl rfl⟩
      | temp j =>
        cases hj : s.val j with
        | none => exact absurd hj k2.2
        | some v =>
          have := hvals j v hj
          simp only [hq, List.map_cons, List.mem_cons] at this
          have hjk := k2.1
          simp only [readArg]
          cases hm : s.mem j with
          | obj w =>
            refine ⟨_, _, rfl, rfl, fun h => .inl h, id, ?_⟩
            simp only [absArg, hj, Option.getD_some]
            rcases this with (h1 | h1) | h1 | h1
            · omega
            · have := hkq j h1; omega
            · rw [hm] at h1; cases h1; exact .inl rfl
            · exact .inr h1.1
          | none =>
            rcases this with (h1 | h1) | h1 | h1
            · omega
            · have := hkq j h1; omega
            · rw [hm] at h1; cases h1
            · exact absurd hm h1.2.1
          | alloc =>
            rcases this with (h1 | h1) | h1 | h1
            · omega
            · have := hkq j h1; omega
            · rw [hm] at h1; cases h1
            · exact absurd hm h1.2.2.1
          | freed =>
            rcases this with (h1 | h1) | h1 | h1
            · omega
            · have := hkq j h1; omega
            · rw [hm] at h1; cases h1
            · exact absurd hm h1.2.2.2
      | host e =>
        simp only [readArg]
        cases hf : s.frames with
        | true => exact ⟨_, _, rfl, by simp, fun h => .inl h, id, .inl rfl⟩
        | false =>
          refine ⟨_, _, rfl, by simp, fun _ => .inr ⟨?_, k, k1, k2⟩, fun _ => rfl, .inr rfl⟩
          rcases h.frames hf with ⟨sig, hp⟩ | hp | hp
          · exact h.handed sig hp
          · exact absurd hp hpc.1
          · exact absurd hp hpc.2
    obtain ⟨s1, w, r1, r2, r3, r4, r5⟩ := hread
    rw [r1]
    generalize s1.dangling = d at *
    subst r2
    simp only [writeRes]
    have hqa : ∀ j b, (j, b) ∈ q → (j, b) ∈ s.queue := by intro j b hb; rw [hq]; simp [hb]
    have hqm : ∀ j, j ∈ s.queue.map (·.1) ↔ j = k ∨ j ∈ q.map (·.1) := by intro j; rw [hq]; simp
    have hkn : k ∉ q.map (·.1) := fun hm => absurd (hkq k hm) (Nat.lt_irrefl _)
    have hqf : ∀ j b, (j, b) ∈ q → j ∈ q.map (·.1) := fun j b hb => List.mem_map.2 ⟨(j, b), hb, rfl⟩
    clear r1 hq
    split
    · rename_i hn
      obtain ⟨k4, k5⟩ := k3 hn
      obtain ⟨h1, h2, h3, h4, h5, h6, h7, h8, h9, h10, h11, h12, h13, h14, h15, h16, h17, h18, h19, h20, h21, h22, h23⟩ := h
      constructor <;> (try dsimp only) <;> first | assumption | exact hso.2 | grind | skip
    · rename_i hn
      have hvk : s.val k = none := by
        cases hv : s.val k with
        | none => rfl
        | some v => exact absurd (h.vneeds k (by rw [hv]; simp)).2 hn
      obtain ⟨h1, h2, h3, h4, h5, h6, h7, h8, h9, h10, h11, h12, h13, h14, h15, h16, h17, h18, h19, h20, h21, h22, h23⟩ := h
      constructor <;> (try dsimp only) <;> first | assumption | exact hso.2 | grind | skip

end Verif.NvChain
