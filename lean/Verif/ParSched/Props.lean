import Verif.ParSched.Proof
/-!
# C60: `bulk` on the type-erased schedulers
-/
set_option maxHeartbeats 1000000
namespace Verif.ParSched

/-! ## The default back end chunks correctly -/

theorem chunkSize_pos (a size : Nat) (ha : 3 * a < W) : 0 < chunkSize a size := by
  unfold chunkSize
  split
  · rename_i h
    rw [Nat.mod_eq_of_lt ha] at h
    have h3 : 3 ≤ size / a := (Nat.le_div_iff_mul_le h.1).2 (by omega)
    omega
  · omega

theorem chunks_cover (cs size m : Nat) (hw : ∀ i, i ≤ m → i * cs < W) (i : Nat) :
    cover ((List.range m).map (fun i => (chunkBegin cs i, chunkEnd cs size i))) i
      = if i < m * cs ∧ i < size then 1 else 0 := by
  induction m with
  | zero => simp [cover]
  | succ m ih =>
    have ih := ih (fun i hi => hw i (by omega))
    rw [List.range_succ, List.map_append, cover_append, ih]
    have h1 := hw m (by omega)
    have h2 := hw (m + 1) (by omega)
    simp only [List.map_cons, List.map_nil, cover, chunkBegin, chunkEnd, Nat.mod_eq_of_lt h1, Nat.mod_eq_of_lt h2]
    rw [Nat.succ_mul]
    repeat' split
    all_goals omega

/-- **C60 (chunking)**: on a pool with any number of threads, the default back end of `parallel_scheduler` meets the contract of a
back end, for every size that leaves room for one chunk below `2^64`: its `execute` calls cover every item exactly once, with
non-empty ranges. -/
theorem C60_default_backend_partial (a : Nat) (k : Kind) (size : Nat) (ha : 3 * a < W) (hs : size + chunkSize a size ≤ W) :
    BackendOk k size (defaultExecs a k size) := by
  have hpos := chunkSize_pos a size ha
  have hn : numChunks a size = (size + chunkSize a size - 1) / chunkSize a size := by
    unfold numChunks; rw [Nat.mod_eq_of_lt (by omega)]
  have hmul : numChunks a size * chunkSize a size ≤ size + chunkSize a size - 1 := by
    rw [hn]; exact Nat.div_mul_le_self _ _
  have hge : size ≤ numChunks a size * chunkSize a size := by
    rw [hn]
    have h1 := Nat.div_add_mod (size + chunkSize a size - 1) (chunkSize a size)
    have h2 := Nat.mod_lt (size + chunkSize a size - 1) hpos
    rw [Nat.mul_comm] at h1; omega
  have hw : ∀ i, i ≤ numChunks a size → i * chunkSize a size < W := by
    intro i hi; have := Nat.mul_le_mul_right (chunkSize a size) hi; omega
  cases k with
  | unchunked =>
    refine ⟨?_, ?_, ?_⟩
    · intro i
      have := cover_singles 0 size i
      simpa [defaultExecs] using this
    · intro r hr; simp [defaultExecs] at hr; obtain ⟨j, _, rfl⟩ := hr; simp
    · intro _ r hr; simp [defaultExecs] at hr; obtain ⟨j, _, rfl⟩ := hr; rfl
  | chunked =>
    refine ⟨?_, ?_, by simp⟩
    · intro i
      have := chunks_cover (chunkSize a size) size (numChunks a size) hw i
      simp only [defaultExecs]; rw [this]
      repeat' split
      all_goals omega
    · intro r hr
      simp only [defaultExecs, List.mem_map, List.mem_range] at hr
      obtain ⟨j, hj, rfl⟩ := hr
      have h1 := hw j (by omega)
      have h2 := hw (j + 1) (by omega)
      have h3 := Nat.mul_le_mul_right (chunkSize a size) (show j + 1 ≤ numChunks a size from hj)
      simp only [chunkBegin, chunkEnd, Nat.mod_eq_of_lt h1, Nat.mod_eq_of_lt h2]
      rw [Nat.succ_mul] at *
      omega

/-- Near `2^64` the computation of the number of chunks wraps around: with one thread and `2^64 - 1` items nothing is run at all. -/
theorem C60_violated_wrap : defaultExecs 1 .chunked (2 ^ 64 - 1) = [] := by decide

/-- The back end of a `task_scheduler` meets the contract if the underlying scheduler's `bulk_chunked` splits its range. -/
theorem C60_task_backend (chunks : Nat → List (Nat × Nat)) (k : Kind) (size : Nat)
    (h1 : EachOnce size (chunks size)) (h2 : ∀ r ∈ chunks size, r.1 < r.2) : BackendOk k size (taskExecs chunks k size) := by
  cases k with
  | chunked => exact ⟨h1, h2, by simp⟩
  | unchunked =>
    refine ⟨?_, ?_, ?_⟩
    · intro i
      have := cover_singles 0 size i
      simpa [taskExecs] using this
    · intro r hr; simp [taskExecs] at hr; obtain ⟨j, _, rfl⟩ := hr; simp
    · intro _ r hr; simp [taskExecs] at hr; obtain ⟨j, _, rfl⟩ := hr; rfl

/-! ## The operation -/

/-- **C60 (each index once), partial** (on a `task_scheduler` only for parallel policies). For every back end that meets its contract and
every interleaving: when the receiver gets `set_value` — and nothing threw — the user's function has been invoked for every index of the
shape exactly once, and for no other index; before that for none more than once. -/
theorem C60_each_once_partial (c : Cfg) (execs : List (Nat × Nat)) (s : St) (hb : BackendOk c.kind (items c) execs)
    (hf : c.front = .par ∨ c.par = true) (hr : Reach (init execs) (step c) s) (ht : s.throws = 0) :
    (∀ i, cover s.calls i ≤ if i < c.n then 1 else 0) ∧ (Sig.value ∈ s.sigs → EachOnce c.n s.calls) := by
  have h := inv_reach c execs s hr
  refine ⟨?_, ?_⟩
  · intro i
    cases hrf : s.refused with
    | true => rw [(h.ref hrf).1]; simp [cover]
    | false => have := h.sum i ht hrf; rw [total c execs hb hf i] at this; omega
  · intro hv i
    have hrf : s.refused = false := by
      have h1 : ∀ s, Reach (init execs) (step c) s → s.refused = true → Sig.value ∉ s.sigs := by
        intro s hr
        induction hr with
        | refl => simp [init]
        | tail a hr1 hs ih =>
          rename_i s1 s2
          have h := inv_reach c execs s1 hr1
          intro href
          unfold step at hs
          split at hs
          · cases hs
          cases a with
          | refuse stop =>
            simp only at hs
            split at hs
            · rename_i hf
              split at hs
              · cases hs; exact ih href
              · cases hs; have := (h.fresh hf).2.2.2.2; simp [this]; cases stop <;> simp
            · cases hs
          | begin k => simp only at hs; split at hs <;> cases hs; exact ih href
          | call k thr =>
            simp only at hs
            repeat' (split at hs)
            all_goals (cases hs; try (have := ih href; simp_all))
          | ret k => simp only at hs; split at hs <;> cases hs; exact ih href
          | complete =>
            simp only at hs
            split at hs
            · rename_i hc; cases hs; have := (h.ref href).2.1; rw [hc.2.2] at this; cases this
            · cases hs
      cases hrf : s.refused with
      | false => rfl
      | true => exact absurd hv (h1 s hr hrf)
    have hval := h.val hrf ht
    have hfin : s.fin = true := by
      cases hf : s.fin with
      | true => rfl
      | false => rw [hf] at hval; rw [hval] at hv; simp at hv
    have hq := h.fin hfin
    have := h.sum i ht hrf
    rw [hq.1, hq.2, total c execs hb hf i] at this
    simpa [coverr, covers] using this

/-- **C60 (completion), partial**: on a `parallel_scheduler` the receiver is completed at most once; on a `task_scheduler`
if no invocation throws. -/
theorem C60_completed_once_partial (c : Cfg) (execs : List (Nat × Nat)) (s : St)
    (hr : Reach (init execs) (step c) s) (ht : c.front = .task → s.throws = 0) :
    s.sigs.length ≤ 1 ∧ (s.sigs.length = 1 ↔ s.fin = true) := by
  have h := inv_reach c execs s hr
  cases hf : c.front with
  | par =>
    have := h.sigP hf
    cases hq : s.fin <;> rw [hq] at this <;> simp only [Bool.false_eq_true, if_true, if_false] at this <;>
      refine ⟨by omega, ⟨fun _ => ?_, fun _ => ?_⟩⟩ <;> first | rfl | omega | contradiction
  | task =>
    have := h.sigT hf
    rw [ht hf] at this
    cases hq : s.fin <;> rw [hq] at this <;> simp only [Bool.false_eq_true, if_true, if_false] at this <;>
      refine ⟨by omega, ⟨fun _ => ?_, fun _ => ?_⟩⟩ <;> first | rfl | omega | contradiction

/-- Measure: every action uses it up. -/
def msTodo (c : Cfg) : List (Nat × Nat) → Nat
  | [] => 0
  | r :: rs => (work c r).length + 2 + msTodo c rs
def msRun : List (List (Nat × Nat)) → Nat
  | [] => 0
  | l :: ls => l.length + 1 + msRun ls
def ms (c : Cfg) (s : St) : Nat := msTodo c s.todo + msRun s.run + (if s.fin then 0 else 1) + (if s.term then 0 else 1)

theorem msTodo_erase (c : Cfg) (l : List (Nat × Nat)) (k : Nat) (r : Nat × Nat) (h : l[k]? = some r) :
    msTodo c (l.eraseIdx k) + ((work c r).length + 2) = msTodo c l := by
  induction l generalizing k with
  | nil => simp at h
  | cons x xs ih =>
    cases k with
    | zero => simp at h; subst h; simp only [List.eraseIdx_cons_zero, msTodo]; omega
    | succ k => simp at h; have := ih k h; simp only [List.eraseIdx_cons_succ, msTodo]; omega
theorem msRun_erase (l : List (List (Nat × Nat))) (k : Nat) (r : List (Nat × Nat)) (h : l[k]? = some r) :
    msRun (l.eraseIdx k) + (r.length + 1) = msRun l := by
  induction l generalizing k with
  | nil => simp at h
  | cons x xs ih =>
    cases k with
    | zero => simp at h; subst h; simp only [List.eraseIdx_cons_zero, msRun]; omega
    | succ k => simp at h; have := ih k h; simp only [List.eraseIdx_cons_succ, msRun]; omega
theorem msRun_set (l : List (List (Nat × Nat))) (k : Nat) (r r' : List (Nat × Nat)) (h : l[k]? = some r) :
    msRun (l.set k r') + r.length = msRun l + r'.length := by
  induction l generalizing k with
  | nil => simp at h
  | cons x xs ih =>
    cases k with
    | zero => simp at h; subst h; simp only [List.set_cons_zero, msRun]; omega
    | succ k => simp at h; have := ih k h; simp only [List.set_cons_succ, msRun]; omega
theorem msRun_append (l m : List (List (Nat × Nat))) : msRun (l ++ m) = msRun l + msRun m := by
  induction l with
  | nil => simp [msRun]
  | cons x xs ih => simp only [List.cons_append, msRun, ih]; omega

/-- **C60 (progress)**: until the back end has completed, something can move. -/
theorem C60_progress (c : Cfg) (execs : List (Nat × Nat)) (s : St) (hr : Reach (init execs) (step c) s)
    (hf : s.fin = false) (ht : s.term = false) : ∃ a s', step c s a = some s' := by
  cases h1 : s.todo with
  | cons r rs => exact ⟨.begin 0, Option.isSome_iff_exists.1 (by simp [step, ht, h1])⟩
  | nil =>
    cases h2 : s.run with
    | nil => exact ⟨.complete, Option.isSome_iff_exists.1 (by simp [step, ht, h1, h2, hf])⟩
    | cons l ls =>
      cases l with
      | nil => exact ⟨.ret 0, Option.isSome_iff_exists.1 (by simp [step, ht, h2])⟩
      | cons r rs => exact ⟨.call 0 false, Option.isSome_iff_exists.1 (by simp [step, ht, h2])⟩

theorem ms_decreases (c : Cfg) (s s' : St) (a : Act) (hs : step c s a = some s') (hfr : s.fresh = true → s.fin = false) : ms c s' < ms c s := by
  unfold step at hs
  split at hs
  · cases hs
  rename_i ht
  have ht : s.term = false := by simpa using ht
  cases a with
  | refuse stop =>
    simp only at hs
    split at hs
    · rename_i hf
      have := hfr hf
      split at hs
      · cases hs; simp only [ms, this, ht]; simp
      · cases hs; simp only [ms, msTodo, this, ht]; simp; omega
    · cases hs
  | begin k =>
    simp only at hs
    split at hs
    · rename_i r hr; cases hs
      have := msTodo_erase c _ k r hr
      simp only [ms, msRun_append, msRun]; omega
    · cases hs
  | call k thr =>
    simp only at hs
    split at hs
    · rename_i r rs hr
      repeat' (split at hs)
      · cases hs; simp only [ms, ht]; simp
      · cases hs; have := msRun_erase _ k _ hr; simp only [ms, ht]; omega
      · cases hs; have := msRun_set _ k _ rs hr; simp only [ms, List.length_cons] at *; omega
    · cases hs
  | ret k =>
    simp only at hs
    split at hs
    · rename_i hr; cases hs; have := msRun_erase _ k _ hr; simp only [ms, List.length_nil] at *; omega
    · cases hs
  | complete =>
    simp only at hs
    split at hs
    · rename_i hc; cases hs; simp only [ms, hc.2.2]; simp
    · cases hs

/-- **C60 (termination)**: there is no infinite run. -/
theorem C60_terminates (c : Cfg) (execs : List (Nat × Nat)) :
    ¬ ∃ f : Nat → St, f 0 = init execs ∧ ∀ i, ∃ a, step c (f i) a = some (f (i + 1)) := by
  rintro ⟨f, h0, hs⟩
  have hr : ∀ i, Reach (init execs) (step c) (f i) := by
    intro i
    induction i with
    | zero => rw [h0]; exact .refl
    | succ i ih => obtain ⟨a, ha⟩ := hs i; exact .tail a ih ha
  have hd : ∀ i, ms c (f i) + i ≤ ms c (f 0) := by
    intro i
    induction i with
    | zero => omega
    | succ i ih =>
      obtain ⟨a, ha⟩ := hs i
      have := ms_decreases c _ _ a ha (fun hf => ((inv_reach c execs _ (hr i)).fresh hf).2.2.1)
      omega
  have := hd (ms c (f 0) + 1)
  omega

/-- **C60 (sequential policies)**: on a `parallel_scheduler`, a sequential policy is respected: there is one `execute` call, so the
invocations are made one after the other, in the order of the indices. -/
theorem C60_sequential (c : Cfg) (execs : List (Nat × Nat)) (s : St) (hb : BackendOk c.kind (items c) execs)
    (hf : c.front = .par) (hp : c.par = false) (hr : Reach (init execs) (step c) s) :
    s.run.length ≤ 1 ∧ ∃ rest, s.calls ++ rest = work c (0, 1) := by
  have hi : items c = 1 := by simp [items, hf, hp]
  rw [hi] at hb
  have he := only_item _ _ hb
  subst he
  suffices hinv : (s.todo = [(0, 1)] ∧ s.run = [] ∧ s.calls = []) ∨
      (s.todo = [] ∧ ((s.run = [] ∧ ∃ rest, s.calls ++ rest = work c (0, 1)) ∨ ∃ l, s.run = [l] ∧ s.calls ++ l = work c (0, 1))) ∨
      (s.term = true ∧ s.run.length ≤ 1 ∧ ∃ rest, s.calls ++ rest = work c (0, 1)) by
    rcases hinv with h | ⟨_, h | ⟨l, h1, h2⟩⟩ | h
    · exact ⟨by simp [h.2.1], _, by rw [h.2.2]; rfl⟩
    · exact ⟨by simp [h.1], h.2⟩
    · exact ⟨by simp [h1], l, h2⟩
    · exact h.2
  induction hr with
  | refl => left; simp [init]
  | tail a hr1 hs ih =>
    rename_i s1 s2
    unfold step at hs
    split at hs
    · cases hs
    rename_i ht
    rcases ih with h | h | h
    · obtain ⟨h1, h2, h3⟩ := h
      cases a with
      | refuse stop =>
        simp only at hs
        split at hs
        · split at hs
          · rename_i hc; rw [hf] at hc; cases hc.1
          · cases hs; right; left; simp only; exact ⟨trivial, .inl ⟨h2, work c (0, 1), by rw [h3]; rfl⟩⟩
        · cases hs
      | begin k =>
        simp only at hs
        split at hs
        · rename_i r hk
          rw [h1] at hk
          cases k with
          | zero => simp at hk; subst hk; cases hs; right; left; simp only [h1, h2, h3]; exact ⟨rfl, .inr ⟨_, rfl, rfl⟩⟩
          | succ k => simp at hk
        · cases hs
      | call k thr => simp [h2] at hs
      | ret k => simp [h2] at hs
      | complete => simp [h1] at hs
    · obtain ⟨h1, h2⟩ := h
      cases a with
      | refuse stop =>
        simp only at hs
        split at hs
        · split at hs
          · rename_i hc; rw [hf] at hc; cases hc.1
          · cases hs; right; left; exact ⟨rfl, h2⟩
        · cases hs
      | begin k => simp [h1] at hs
      | call k thr =>
        rcases h2 with ⟨h2, h3⟩ | ⟨l, h2, h3⟩
        · simp [h2] at hs
        · simp only [h2] at hs
          cases k with
          | succ k => simp at hs
          | zero =>
            cases l with
            | nil => simp at hs
            | cons r rs =>
              simp only [List.getElem?_cons_zero, hf] at hs
              cases thr with
              | true => simp only [if_true] at hs; cases hs; right; right; exact ⟨rfl, by simp [h2], rs, by simpa using h3⟩
              | false =>
                simp only [Bool.false_eq_true, if_false] at hs; cases hs; right; left
                exact ⟨h1, .inr ⟨rs, by simp, by simpa using h3⟩⟩
      | ret k =>
        rcases h2 with ⟨h2, h3⟩ | ⟨l, h2, h3⟩
        · simp [h2] at hs
        · simp only [h2] at hs
          cases k with
          | succ k => simp at hs
          | zero =>
            cases l with
            | cons r rs => simp at hs
            | nil => simp at hs; cases hs; right; left; exact ⟨h1, .inl ⟨rfl, [], h3⟩⟩
      | complete =>
        simp only at hs
        split at hs
        · cases hs; right; left; exact ⟨h1, h2⟩
        · cases hs
    · exact absurd h.1 ht

/-! ## What goes wrong on a `task_scheduler` -/

/-- On a `task_scheduler`, every exception is sent to the receiver, and the completion of the back end as well: a run in which an invocation
throws completes the receiver at least twice. -/
theorem C60_violated_task_throw (c : Cfg) (execs : List (Nat × Nat)) (s : St) (hf : c.front = .task)
    (hr : Reach (init execs) (step c) s) (hfin : s.fin = true) (ht : s.throws ≠ 0) : 2 ≤ s.sigs.length := by
  have h := (inv_reach c execs s hr).sigT hf
  rw [hfin] at h; simp at h; omega

/-- On a `task_scheduler`, `bulk_unchunked` with a sequential policy and a shape of at least 2 invokes the function with an index outside the
shape, in every run that completes without exception. -/
theorem C60_violated_task_seq (c : Cfg) (execs : List (Nat × Nat)) (s : St) (hf : c.front = .task) (hk : c.kind = .unchunked)
    (hp : c.par = false) (hn : 2 ≤ c.n) (hb : BackendOk c.kind (items c) execs)
    (hr : Reach (init execs) (step c) s) (hfin : s.fin = true) (hrf : s.refused = false) (ht : s.throws = 0) :
    0 < cover s.calls c.n := by
  have h := inv_reach c execs s hr
  have hq := h.fin hfin
  have hsum := h.sum c.n ht hrf
  rw [hq.1, hq.2] at hsum
  simp only [coverr, covers] at hsum
  have hi : items c = c.n := by simp [items, hf]
  rw [hi] at hb
  -- some `execute` call covers item 1
  have h1 := hb.once 1
  rw [if_pos (by omega)] at h1
  have key : ∀ l : List (Nat × Nat), (∀ r ∈ l, r.2 = r.1 + 1) → 0 < cover l 1 → 0 < covers c l c.n := by
    intro l
    induction l with
    | nil => simp [cover]
    | cons r rs ih =>
      intro hs hc
      simp only [cover] at hc
      simp only [covers]
      by_cases hr1 : r.1 ≤ 1 ∧ 1 < r.2
      · have hsr := hs r (by simp)
        have : cover (work c r) c.n = 1 := by
          simp only [work, hk, hp, Bool.false_eq_true, if_false]
          rw [cover_singles, if_pos (by omega)]
        omega
      · rw [if_neg hr1] at hc
        have := ih (fun x hx => hs x (by simp [hx])) (by omega)
        omega
  have := key execs (hb.single hk) (by omega)
  omega

/-- Both happen: a run on two chunks, both of which throw, completes the receiver three times. -/
theorem C60_throw_witness : ∃ s, Reach (init [(0, 1), (1, 2)]) (step ⟨.task, .chunked, true, 2⟩) s ∧
    decide (s.sigs = [.error, .error, .value]) = true :=
  Reach.witness [.begin 0, .begin 0, .call 0 true, .call 0 true, .complete] (fun s : St => decide (s.sigs = [.error, .error, .value])) (by rfl)

/-- A sequential policy on a `task_scheduler` over a pool: the whole range is run once per chunk, concurrently. -/
theorem C60_seq_chunked_witness : ∃ s, Reach (init [(0, 1), (1, 2)]) (step ⟨.task, .chunked, false, 2⟩) s ∧
    decide (s.run = [[(0, 2)], [(0, 2)]]) = true :=
  Reach.witness [.begin 0, .begin 0] (fun s : St => decide (s.run = [[(0, 2)], [(0, 2)]])) (by rfl)

/-- … and index 2 of a shape of 2 is reached. -/
theorem C60_seq_witness : ∃ s, Reach (init [(0, 1), (1, 2)]) (step ⟨.task, .unchunked, false, 2⟩) s ∧
    decide (s.sigs = [.value] ∧ s.calls = [(0, 1), (1, 2), (1, 2), (2, 3)]) = true :=
  Reach.witness [.begin 0, .call 0 false, .call 0 false, .ret 0, .begin 0, .call 0 false, .call 0 false, .ret 0, .complete]
    (fun s : St => decide (s.sigs = [.value] ∧ s.calls = [(0, 1), (1, 2), (1, 2), (2, 3)])) (by rfl)

/-- On a `task_scheduler`, failing to set up the back end's operation (an allocation, for instance) is undefined behaviour: nothing is sent. -/
theorem C60_violated_task_setup : ∃ s, Reach (init [(0, 1), (1, 2)]) (step ⟨.task, .chunked, true, 2⟩) s ∧
    decide (s.term = true ∧ s.sigs = [] ∧ s.throws = 0) = true :=
  Reach.witness [.refuse false] (fun s : St => decide (s.term = true ∧ s.sigs = [] ∧ s.throws = 0)) (by rfl)

/-! ### The hypotheses are met -/

/-- Ten items on a pool of two threads: five chunks of two. -/
example : defaultExecs 2 .chunked 10 = [(0, 2), (2, 4), (4, 6), (6, 8), (8, 10)] ∧ 3 * 2 < W ∧ 10 + chunkSize 2 10 ≤ W := by decide
/-- Eleven items: the last chunk is shorter. -/
example : defaultExecs 2 .chunked 11 = [(0, 2), (2, 4), (4, 6), (6, 8), (8, 10), (10, 11)] := by decide
/-- A complete run, two chunks interleaved. -/
example : ∃ s, Reach (init (defaultExecs 4 .chunked 2)) (step ⟨.par, .chunked, true, 2⟩) s ∧
    decide (s.sigs = [.value] ∧ s.throws = 0 ∧ s.calls = [(1, 2), (0, 1)]) = true :=
  Reach.witness [.begin 1, .begin 0, .call 0 false, .call 1 false, .ret 1, .ret 0, .complete]
    (fun s : St => decide (s.sigs = [.value] ∧ s.throws = 0 ∧ s.calls = [(1, 2), (0, 1)])) (by rfl)
/-- A sequential policy on a `parallel_scheduler`. -/
example : ∃ s, Reach (init (defaultExecs 4 .unchunked 1)) (step ⟨.par, .unchunked, false, 3⟩) s ∧
    decide (s.sigs = [.value] ∧ s.calls = [(0, 1), (1, 2), (2, 3)]) = true :=
  Reach.witness [.begin 0, .call 0 false, .call 0 false, .call 0 false, .ret 0, .complete]
    (fun s : St => decide (s.sigs = [.value] ∧ s.calls = [(0, 1), (1, 2), (2, 3)])) (by rfl)

end Verif.ParSched
