import Verif.NvSplit.Inv2
import Verif.NvSplit.Inv3
import Verif.ListSum

/-! # nvexec `split` — properties (C84) -/
namespace Verif.NvSplit

/-! ## Every operation once, and with the same result -/

/-- **C84**. The child is started at most once, and not at all if it was skipped because of a stop request; each
operation is completed at most once, and not used by the notifying thread after that. -/
theorem C84_once {c : Cfg} {s : St} (h : Reachable c s) :
    s.starts ≤ 1 ∧ (s.skipped = true → s.starts = 0 ∧ s.srcStopped = true) ∧ (∀ i, (s.results i).length ≤ 1) ∧ s.opUaf = false := by
  have hi := invAD h
  have hs : ∀ s, Reachable c s → (s.skipped = true → s.srcStopped = true) := by
    refine Reach.inv _ (by simp [init]) ?_
    intro s a s' hi he
    cases a <;> simp only [step, stepNtf, stepOp, St.release] at he <;> (repeat' split at he) <;>
      first
      | (simp at he; done)
      | (simp only [Option.some.injEq] at he; subst he; simp_all [St.touch, St.touchOp, St.note])
  exact ⟨hi.1.starts, fun h1 => ⟨hi.1.excl h1, hs s h h1⟩, hi.1.one, hi.1.opu⟩

/-- **C84**. What a receiver is completed with: a result is the child's, or stopped if the child was not started because
of a stop request; a CUDA error was returned by a call of one of the operations; the wrong alternative of the variant, or
no variant, is visited only after a failure of CUDA. -/
theorem C84_right {c : Cfg} {s : St} (h : Reachable c s) (i : Nat) :
    (∀ o, Res.result o ∈ s.results i → s.outcome = some o ∨ (s.skipped = true ∧ o = .stopped)) ∧
    (∀ e, Res.cuda e ∈ s.results i → e ∈ s.cudaErrs) ∧
    (Res.garbage ∈ s.results i → s.gpuFailed = true ∨ s.cudaErrs ≠ []) :=
  have hi := (invABE h).2.2
  ⟨hi.res i, hi.cuda i, hi.garb i⟩

/-- **C84** (partial: as long as CUDA does not fail). All operations are completed with the same result. -/
theorem C84_same_partial {c : Cfg} {s : St} (h : Reachable c s) (hg : s.gpuFailed = false) (hc : s.cudaErrs = [])
    {i j : Nat} {r r' : Res} (hr : r ∈ s.results i) (hr' : r' ∈ s.results j) : r = r' ∧ ∃ o, r = .result o := by
  have hA := (invABE h).1
  have key : ∀ i r, r ∈ s.results i → ∃ o, r = .result o ∧ final s o := by
    intro i r hr
    obtain ⟨h1, h2, h3⟩ := C84_right h i
    cases r with
    | result o => exact ⟨o, rfl, h1 o hr⟩
    | cuda e => have := h2 e hr; rw [hc] at this; cases this
    | garbage => rcases h3 hr with h4 | h4 <;> simp_all
  obtain ⟨o, h1, h2⟩ := key i r hr
  obtain ⟨o', h1', h2'⟩ := key j r' hr'
  subst h1 h1'
  refine ⟨?_, o, rfl⟩
  have h3 := hA.excl
  have h4 := hA.oc
  rcases h2 with h2 | h2 <;> rcases h2' with h2' | h2' <;> simp_all

/-- Two operations: one waits, one is started after the child's value has arrived. -/
example : ∃ s, Reachable ⟨true, .ok, 2⟩ s ∧ s.results 0 = [.result (.value 7)] ∧ s.results 1 = [.result (.value 7)] ∧
    s.gpuFailed = false ∧ s.cudaErrs = [] ∧ s.starts = 1 ∧ s.frees = 1 := by
  obtain ⟨s, h1, h2⟩ := Reach.witness (init := init ⟨true, .ok, 2⟩) (step := step ⟨true, .ok, 2⟩)
    [.connect 0, .connect 1, .dropSender, .start 0, .op 0 none false, .op 0 none false, .op 0 none false, .op 0 none false,
      .op 0 none false, .complete (.value 7) none, .ntf none, .ntf none, .ntf none, .ntf none, .ntf none,
      .start 1, .op 1 none false, .op 1 none false, .gpu true, .op 1 none false, .op 1 none false, .ntf none, .ntf none,
      .ntf none, .destroy 0, .destroy 1]
    (fun x : St => decide (x.results 0 = [.result (.value 7)] ∧ x.results 1 = [.result (.value 7)] ∧
    x.gpuFailed = false ∧ x.cudaErrs = [] ∧ x.starts = 1 ∧ x.frees = 1)) (by rfl)
  simp only [decide_eq_true_eq] at h2
  exact ⟨s, h1, h2⟩

/-- The child is skipped: stop was requested before the first operation was started. -/
example : ∃ s, Reachable ⟨true, .ok, 2⟩ s ∧ s.results 0 = [.result .stopped] ∧ s.results 1 = [.result .stopped] ∧
    s.skipped = true ∧ s.starts = 0 := by
  obtain ⟨s, h1, h2⟩ := Reach.witness (init := init ⟨true, .ok, 2⟩) (step := step ⟨true, .ok, 2⟩)
    [.connect 0, .connect 1, .parentStop 0, .start 0, .op 0 none false, .op 0 none false, .cb 0, .cb 0, .op 0 none false,
      .op 0 none false, .start 1, .op 1 none false, .op 1 none false, .op 1 none false, .op 0 none false, .ntf none, .ntf none,
      .ntf none, .ntf none, .ntf none, .ntf none, .ntf none, .ntf none, .ntf none, .ntf none]
    (fun x : St => decide (x.results 0 = [.result .stopped] ∧ x.results 1 = [.result .stopped] ∧
    x.skipped = true ∧ x.starts = 0)) (by rfl)
  simp only [decide_eq_true_eq] at h2
  exact ⟨s, h1, h2⟩

/-- **C84** violated: the result of one operation's `cudaStreamWaitEvent` is stored in the shared status, but not looked
at. The operation whose wait failed gets a variant that was not written yet, the next one, which could have had the
child's value, gets the error. -/
theorem C84_violated_status : ∃ s, Reachable ⟨true, .ok, 2⟩ s ∧ s.results 0 = [.garbage] ∧ s.results 1 = [.cuda 4] ∧
    s.outcome = some (.value 7) ∧ s.gpuFailed = false ∧ s.cudaErrs = [4] := by
  obtain ⟨s, h1, h2⟩ := Reach.witness (init := init ⟨true, .ok, 2⟩) (step := step ⟨true, .ok, 2⟩)
    [.connect 0, .connect 1, .start 0, .op 0 none false, .op 0 none false, .op 0 none false, .op 0 none false,
      .op 0 none false, .complete (.value 7) none, .ntf none, .ntf none, .ntf none, .ntf none, .ntf none, .ntf (some 4),
      .start 1, .op 1 none false, .op 1 none false, .op 1 none false, .op 1 none false]
    (fun x : St => decide (x.results 0 = [.garbage] ∧ x.results 1 = [.cuda 4] ∧
    x.outcome = some (.value 7) ∧ x.gpuFailed = false ∧ x.cudaErrs = [4])) (by rfl)
  simp only [decide_eq_true_eq] at h2
  exact ⟨s, h1, h2⟩

/-- **C84** violated: when there is no memory for the result, the child is started and its result is written through a
null pointer; and if the event can be recorded, that error is forgotten. -/
theorem C84_violated_null : ∃ s, Reachable ⟨true, .noMem 2, 1⟩ s ∧ s.nullWrite = true ∧ s.results 0 = [.garbage] ∧
    s.cudaErrs = [2] := by
  obtain ⟨s, h1, h2⟩ := Reach.witness (init := init ⟨true, .noMem 2, 1⟩) (step := step ⟨true, .noMem 2, 1⟩)
    [.connect 0, .start 0, .op 0 none false, .op 0 none false, .op 0 none false, .op 0 none false,
      .op 0 none false, .complete (.value 7) none, .ntf none, .ntf none, .ntf none, .ntf none, .ntf none, .gpu true, .ntf none,
      .ntf none]
    (fun x : St => decide (x.nullWrite = true ∧ x.results 0 = [.garbage] ∧ x.cudaErrs = [2])) (by rfl)
  simp only [decide_eq_true_eq] at h2
  exact ⟨s, h1, h2⟩

/-- **C84**. Otherwise no result is written through a null pointer. -/
theorem C84_null_partial {c : Cfg} {s : St} (h : Reachable c s) (hc : ∀ e, c.ctor ≠ .noMem e) : s.nullWrite = false := by
  cases hn : s.nullWrite with
  | false => rfl
  | true => obtain ⟨e, he⟩ := (invABE h).2.1.null hn; exact absurd he (hc e)

/-! ## The shared state -/

/-- **C84**. The shared state is destroyed exactly when the sender and all operations are gone: once, and never
before. -/
theorem C84_freed {c : Cfg} {s : St} (h : Reachable c s) :
    (s.senderRef = false ∧ (∀ i, s.op i = .off ∨ s.op i = .gone) → s.frees = 1) ∧
    (s.senderRef = true ∨ (∃ i, s.op i ≠ .off ∧ s.op i ≠ .gone) → s.frees = 0) := by
  obtain ⟨hA, hD⟩ := invAD h
  constructor
  · rintro ⟨h1, h2⟩
    apply hD.free1
    rw [freed_iff]
    refine ⟨h1, fun i _ => ?_⟩
    rcases h2 i with h3 | h3 <;> rw [h3] <;> rfl
  · intro h1
    apply hD.free0
    rcases h1 with h1 | ⟨i, h1, h2⟩
    · cases hf : s.freed c with
      | false => rfl
      | true => have := (freed_iff.1 hf).1; rw [h1] at this; cases this
    · refine alive_freed hA (i := i) ?_
      cases hp : s.op i <;> simp_all [Op.alive]

/-- **C84** (partial: unless the child completes inside a stop callback). The shared state is not used after it was
destroyed. -/
theorem C84_safe_partial {c : Cfg} {s : St} (h : Reachable c s) (h1 : s.nestedIn = none) : s.uaf = false :=
  (invAD h).2.uaf h1

/-- **C84** violated: the child completes inside the stop callback of the only operation; the receiver destroys the
operation, and with it goes the stop source whose `request_stop()` is running. -/
theorem C84_violated_inline : ∃ s, Reachable ⟨true, .ok, 1⟩ s ∧ s.uaf = true ∧ s.results 0 = [.result .stopped] ∧
    s.cudaErrs = [] ∧ s.gpuFailed = false := by
  obtain ⟨s, h1, h2⟩ := Reach.witness (init := init ⟨true, .ok, 1⟩) (step := step ⟨true, .ok, 1⟩)
    [.connect 0, .dropSender, .start 0, .op 0 none false, .op 0 none false, .op 0 none false, .op 0 none false,
      .op 0 none false, .parentStop 0, .cb 0, .complete .stopped (some 0), .ntf none, .ntf none, .ntf none, .ntf none,
      .ntf none, .gpu true, .ntf none, .ntf none, .destroy 0, .ntf none, .cb 0]
    (fun x : St => decide (x.uaf = true ∧ x.results 0 = [.result .stopped] ∧ x.cudaErrs = [] ∧ x.gpuFailed = false)) (by rfl)
  simp only [decide_eq_true_eq] at h2
  exact ⟨s, h1, h2⟩

/-! ## Progress -/

/-- Steps that the operations make by themselves: not the child's completion, the calls of the owners, a stop request,
or a spurious failure of the compare-exchange. -/
def internal : Act → Bool
  | .op _ _ sp => !sp
  | .ntf _ | .cb _ | .gpu _ => true
  | _ => false

/-- **C84**. Nothing waits forever: in every state in which something is under way, a step is possible. -/
theorem C84_never_stuck {c : Cfg} {s : St} (h : Reachable c s)
    (hw : (s.ntf ≠ .idle ∧ s.ntf ≠ .done) ∨
      ∃ i, s.op i ≠ .off ∧ s.op i ≠ .fresh ∧ s.op i ≠ .started ∧ s.op i ≠ .gone) :
    ∃ a, internal a = true ∧ (step c s a).isSome = true := by
  obtain ⟨hA, hD⟩ := invAD h
  apply Classical.byContradiction
  intro hno
  have hno : ∀ a, internal a = true → (step c s a).isSome = false := by
    intro a ha
    cases hs : (step c s a).isSome with
    | false => rfl
    | true => exact absurd ⟨a, ha, hs⟩ hno
  have hg : s.gpu.busy = false := by
    cases hg : s.gpu with
    | queued v => have := hno (.gpu true) rfl; simp [step, hg] at this
    | _ => rfl
  have hin : ∀ i, (s.cb i).busy = true → s.nestedIn = some i ∧ s.ntf ≠ .done := by
    intro i hb
    have := hno (.cb i) rfl
    cases hp : s.cb i with
    | off => rw [hp] at hb; cases hb
    | fin => rw [hp] at hb; cases hb
    | enter => simp [step, hp] at this
    | inside =>
      simp only [step, hp] at this
      split at this
      · rename_i h1; simpa [inner] using h1
      · simp at this
  have hnt := hno (.ntf none) rfl
  have hn : s.ntf = .idle ∨ s.ntf = .done := by
    simp only [step, stepNtf] at hnt
    cases hp : s.ntf with
    | pick r => rw [hp] at hnt; cases r <;> simp at hnt
    | reset k r =>
      rw [hp] at hnt
      by_cases h1 : (s.cb k).busy = true
      · have := hin k h1; simp_all
      · simp_all
    | _ => rw [hp] at hnt; (repeat' split at hnt) <;> simp_all
  have hcb : ∀ i, (s.cb i).busy = false := by
    intro i
    cases hb : (s.cb i).busy with
    | false => rfl
    | true =>
      have h1 := hin i hb
      have h2 := hD.nest (by simp [h1.1])
      rcases hn with h3 | h3
      · exact absurd (hA.idle.1 h3).1 h2
      · exact absurd h3 h1.2
  rcases hw with h1 | ⟨i, h1, h2, h3, h4⟩
  · rcases hn with h5 | h5 <;> simp_all
  · have how := hno (.op i none false) rfl
    have h5 := hcb i
    have h6 := hD.inl i
    simp only [step, stepOp] at how
    cases hp : s.op i with
    | inl l =>
      have h7 := h6 l hp
      rw [hp] at how
      cases hq : s.cb i <;> simp_all [Cb.busy]
    | _ => rw [hp] at how; dsimp only at how; (repeat' split at how) <;> simp_all

/-- The operation that was pushed first is about to start the child, or has done so, or has skipped it. -/
theorem pusher {c : Cfg} {s : St} (h : Reachable c s) (h1 : s.head ≠ none) (h2 : s.head ≠ some []) :
    s.starts = 1 ∨ s.skipped = true ∨ ∃ j, s.op j = .check ∨ s.op j = .go := by
  have hP : ∀ s, Reachable c s → (InvA c s ∧ (∀ l k, s.head = some l → l.getLast? = some k →
      s.starts = 1 ∨ s.skipped = true ∨ s.op k = .check ∨ s.op k = .go)) := by
    refine Reach.inv _ ⟨invA_init c, by intro l k h1 h2; simp [init] at h1; subst h1; simp at h2⟩ ?_
    rintro s a s' ⟨hA, hi⟩ he
    refine ⟨invA_step c s a s' hA he, ?_⟩
    have hf := hA.first
    have hst := hA.starts
    cases a <;> simp only [step, stepNtf, stepOp, St.release] at he <;> (repeat' split at he) <;>
      first
      | (simp at he; done)
      | (simp only [Option.some.injEq] at he; subst he
         try simp only [St.touch, St.touchOp, St.note]
         first
         | assumption
         | grind [upd_apply]
         | skip)
  cases hl : s.head with
  | none => exact absurd hl h1
  | some l =>
    cases hk : l.getLast? with
    | none => rw [List.getLast?_eq_none_iff] at hk; subst hk; exact absurd hl h2
    | some k =>
      rcases (hP s h).2 l k hl hk with h3 | h3 | h3
      · exact .inl h3
      · exact .inr (.inl h3)
      · exact .inr (.inr ⟨k, h3⟩)

/-- **C84**. When everything has come to rest, an operation that was started has been completed exactly once, or waits
for the child, which was started and has not completed. -/
theorem C84_end {c : Cfg} {s : St} (h : Reachable c s) (hq : ∀ a, internal a = true → step c s a = none) {i : Nat}
    (hi : s.op i ≠ .off ∧ s.op i ≠ .fresh ∧ s.op i ≠ .gone) :
    s.op i = .started ∧ ((s.results i).length = 1 ∨ (s.starts = 1 ∧ s.outcome = none)) := by
  obtain ⟨hA, hD⟩ := invAD h
  have hrest : ¬((s.ntf ≠ .idle ∧ s.ntf ≠ .done) ∨
      ∃ i, s.op i ≠ .off ∧ s.op i ≠ .fresh ∧ s.op i ≠ .started ∧ s.op i ≠ .gone) := by
    intro hw
    obtain ⟨a, ha, hs⟩ := C84_never_stuck h hw
    rw [hq a ha] at hs; cases hs
  have hst : ∀ j, s.op j = .off ∨ s.op j = .fresh ∨ s.op j = .started ∨ s.op j = .gone := by
    intro j
    apply Classical.byContradiction
    intro h1
    exact hrest (.inr ⟨j, fun h2 => h1 (.inl h2), fun h2 => h1 (.inr (.inl h2)), fun h2 => h1 (.inr (.inr (.inl h2))),
      fun h2 => h1 (.inr (.inr (.inr h2)))⟩)
  have hs : s.op i = .started := by have := hst i; simp_all
  refine ⟨hs, ?_⟩
  have hone := hA.one i
  cases hr : s.results i with
  | cons a l => left; rw [hr] at hone; simp at hone ⊢; exact hone
  | nil =>
    right
    have hmem := (hA.mem i).2 ⟨by simp [hs, Op.in], hr⟩
    have hn : s.ntf = .idle := by
      apply Classical.byContradiction
      intro h1
      have h2 : s.ntf = .done := by
        apply Classical.byContradiction
        intro h2; exact hrest (.inl ⟨h1, h2⟩)
      have h3 : s.head = none := hA.nopast.2 (by rw [h2]; rfl)
      simp [W, h3, h2, Ntf.rest] at hmem
    have h1 := hA.idle.1 hn
    have h2 : s.head ≠ none := by intro h2; rw [hA.nopast, hn] at h2; cases h2
    have h3 : s.head ≠ some [] := by intro h3; simp [W, h3] at hmem
    rcases pusher h h2 h3 with h4 | h4 | ⟨j, h4⟩
    · exact ⟨h4, h1.1⟩
    · rw [h1.2] at h4; cases h4
    · rcases hst j with h5 | h5 | h5 | h5 <;> rw [h5] at h4 <;> simp at h4

/-! ### A bound on the number of steps -/

/-- Steps left in `start()` and `notify(this)`. -/
def rank : Op → Nat
  | .load => 12 | .emplace _ => 11 | .inl _ => 10 | .push _ => 9 | .check => 4 | .go => 3 | .reset => 3 | .wait => 2
  | .deliver => 1 | _ => 0

/-- Steps left for the notifier, besides four for every operation in the list. -/
def nrank : Ntf → Nat
  | .idle => 8 | .result _ => 8 | .record => 7 | .xchg => 6 | .pick _ => 5 | .reset _ _ => 4 | .wait _ _ => 3
  | .deliver _ _ => 2 | .done => 0

/-- Steps left for a callback. -/
def crank : Cb → Nat
  | .enter => 2 | .inside => 1 | _ => 0

/-- Steps left for the GPU. -/
def grank : Gpu → Nat
  | .queued _ => 1 | _ => 0

/-- The next compare-exchange of operation `i` fails. -/
def stale (s : St) (i : Nat) : Bool :=
  match s.op i with
  | .push l => s.head != some l
  | _ => false

/-- Progress that cannot be undone. -/
def major (c : Cfg) (s : St) : Nat := lsum rank s.op (List.range c.n) + 4 * (W s).length + nrank s.ntf

/-- Progress that a major step can undo. -/
def minor (c : Cfg) (s : St) : Nat := cnt (stale s) c.n + lsum crank s.cb (List.range c.n) + grank s.gpu

/-- Steps left. -/
def left (c : Cfg) (s : St) : Nat := (c.n + 4) * major c s + minor c s

theorem left_major {c : Cfg} {s s' : St} (h1 : major c s' < major c s) (h2 : minor c s' ≤ minor c s + c.n + 3) :
    left c s' < left c s := by
  unfold left
  have := Nat.mul_le_mul_left (c.n + 4) (Nat.succ_le_of_lt h1)
  rw [Nat.mul_succ] at this
  omega

theorem left_minor {c : Cfg} {s s' : St} (h1 : major c s' = major c s) (h2 : minor c s' < minor c s) :
    left c s' < left c s := by
  unfold left; rw [h1]; omega

theorem rank_upd {c : Cfg} {s : St} {i : Nat} (hi : i < c.n) (o : Op) :
    lsum rank (upd s.op i o) (List.range c.n) + rank (s.op i) = lsum rank s.op (List.range c.n) + rank o := by
  exact lsum_upd_in (c := rank) (f := s.op) List.nodup_range (List.mem_range.2 hi)

theorem crank_upd {c : Cfg} {s : St} {i : Nat} (hi : i < c.n) (o : Cb) :
    lsum crank (upd s.cb i o) (List.range c.n) + crank (s.cb i) = lsum crank s.cb (List.range c.n) + crank o := by
  exact lsum_upd_in (c := crank) (f := s.cb) List.nodup_range (List.mem_range.2 hi)

theorem cnt_stale_flip {c : Cfg} {s : St} {i : Nat} {l m : List Nat} (hi : i < c.n) (hp : s.op i = .push l)
    (hh : s.head = some m) (hne : m ≠ l) :
    cnt (stale { s with op := upd s.op i (.push m) }) c.n + 1 = cnt (stale s) c.n := by
  refine (cnt_flip hi (p := stale { s with op := upd s.op i (.push m) }) (q := stale s) ?_ ?_ ?_).symm
  · simp [stale, hh]
  · simp [stale, hp, hh, hne]
  · intro j hj
    simp [stale, upd_other _ _ hj]

set_option maxHeartbeats 4000000 in
theorem left_op {c : Cfg} {s s' : St} {i : Nat} {r : Option Nat} (hA : InvA c s) (hi : i < c.n)
    (he : stepOp c s i r false = some s') : left c s' < left c s := by
  have hc := cnt_le (stale s') c.n
  simp only [stepOp] at he
  cases hp : s.op i with
  | push l =>
    simp only [hp] at he
    cases hh : s.head with
    | none =>
      simp only [hh, Option.some.injEq] at he; subst he
      refine left_major ?_ ?_
      · have := rank_upd (s := s) hi .reset
        simp only [hp, rank] at this
        simp only [major, St.touch, W, hh]; omega
      · simp only [minor, St.touch] at hc ⊢; omega
    | some m =>
      simp only [hh] at he
      split at he
      · rename_i hml
        simp only [Option.some.injEq] at he; subst he
        refine left_major ?_ ?_
        · have h1 := rank_upd (s := s) hi .check
          have h2 := rank_upd (s := s) hi .started
          simp only [hp, rank] at h1 h2
          simp only [major, St.touch, W, hh]
          split
          · simp [hml.1]; omega
          · simp [hml.1]; omega
        · simp only [minor, St.touch] at hc ⊢; omega
      · rename_i hml
        simp only [Option.some.injEq] at he; subst he
        refine left_minor ?_ ?_
        · have h1 := rank_upd (s := s) hi (.push m)
          simp only [hp, rank] at h1
          simp only [major, St.touch, W, hh]; omega
        · have h1 := cnt_stale_flip hi hp hh (fun h2 => hml ⟨h2, trivial⟩)
          have h2 : (stale { s.touch c with op := upd s.op i (.push m) }) = stale { s with op := upd s.op i (.push m) } := rfl
          simp only [minor]
          rw [h2]
          simp only [St.touch]; omega
  | emplace l =>
    simp only [hp] at he
    split at he
    · simp only [Option.some.injEq] at he; subst he
      refine left_major ?_ ?_
      · have := rank_upd (s := s) hi (.inl l)
        simp only [hp, rank] at this
        simp only [major, St.touch, W]; omega
      · have := crank_upd (s := s) hi .enter
        simp only [crank] at this
        simp only [minor, St.touch] at hc ⊢; omega
    · simp only [Option.some.injEq] at he; subst he
      refine left_major ?_ ?_
      · have := rank_upd (s := s) hi (.push l)
        simp only [hp, rank] at this
        simp only [major, St.touch, W]; omega
      · simp only [minor, St.touch] at hc ⊢; omega
  | check =>
    have hf := hA.first i (.inl hp)
    have hidle : s.ntf = .idle := by
      rw [hA.idle]
      refine ⟨?_, hf.2.1⟩
      cases ho : s.outcome with
      | none => rfl
      | some o => have := hA.oc (by simp [ho]); omega
    have hh : s.head ≠ none := by intro h1; rw [hA.nopast, hidle] at h1; cases h1
    obtain ⟨m, hm⟩ := Option.ne_none_iff_exists'.1 hh
    simp only [hp] at he
    split at he
    · simp only [Option.some.injEq] at he; subst he
      refine left_major ?_ ?_
      · have := rank_upd (s := s) hi .started
        simp only [hp, rank] at this
        simp only [major, St.touch, W, hm, hidle, nrank]; omega
      · simp only [minor, St.touch] at hc ⊢; omega
    · simp only [Option.some.injEq] at he; subst he
      refine left_major ?_ ?_
      · have := rank_upd (s := s) hi .go
        simp only [hp, rank] at this
        simp only [major, St.touch, W]; omega
      · simp only [minor, St.touch] at hc ⊢; omega
  | _ =>
    simp only [hp] at he
    (repeat' split at he) <;>
    first
    | (simp at he; done)
    | (simp only [Option.some.injEq] at he; subst he
       refine left_major ?_ ?_
       · have h1 := rank_upd (s := s) hi .reset
         have h2 := rank_upd (s := s) hi .wait
         have h3 := rank_upd (s := s) hi .deliver
         have h4 := rank_upd (s := s) hi .started
         have h5 := fun l => rank_upd (s := s) hi (.emplace l)
         have h6 := fun l => rank_upd (s := s) hi (.push l)
         simp only [hp, rank] at h1 h2 h3 h4 h5 h6
         simp only [major, St.touch, St.note, W]
         first
         | omega
         | (have h7 := h5 ‹List Nat›; omega)
         | (have h7 := h6 ‹List Nat›; omega)
       · simp only [minor, St.touch, St.note] at hc ⊢; omega)

set_option maxHeartbeats 4000000 in
theorem left_ntf {c : Cfg} {s s' : St} {r : Option Nat} (hA : InvA c s)
    (he : stepNtf c s r = some s') : left c s' < left c s := by
  have hc := cnt_le (stale s') c.n
  have hnp := hA.nopast
  have hh : s.head = none ∨ ∃ l, s.head = some l := by cases s.head <;> simp
  simp only [stepNtf] at he
  (repeat' split at he) <;>
  first
  | (simp at he; done)
  | (rename_i hn
     rcases hh with hh | ⟨l, hh⟩ <;> simp [hh, Ntf.past, *] at hnp <;>
     (simp only [Option.some.injEq] at he; subst he
      refine left_major ?_ ?_
      · simp [major, St.touch, St.touchOp, St.note, W, hh, nrank, Ntf.rest, *]
        try omega
      · simp only [minor, St.touch, St.touchOp, St.note, grank] at hc ⊢; omega))
  | skip

theorem left_lt {c : Cfg} {s s' : St} {a : Act} (hA : InvA c s) (hD : InvD c s) (ha : internal a = true)
    (he : step c s a = some s') : left c s' < left c s := by
  cases a with
  | op i r sp =>
    cases sp with
    | true => cases ha
    | false =>
      have hi : i < c.n := by
        apply Classical.byContradiction
        intro h1
        simp [step, stepOp, hA.off i (by omega)] at he
      exact left_op hA hi he
  | ntf r => exact left_ntf hA he
  | cb i =>
    simp only [step] at he
    have hi : i < c.n := by
      apply Classical.byContradiction
      intro h1
      have h2 := (hD.early i (by rw [hA.off i (by omega)]; rfl)).1
      simp [h2] at he
    have h1 := crank_upd (s := s) hi .inside
    have h2 := crank_upd (s := s) hi .fin
    cases hp : s.cb i with
    | off => simp [hp] at he
    | fin => simp [hp] at he
    | enter =>
      simp only [hp, Option.some.injEq] at he; subst he
      simp only [hp, crank] at h1 h2
      refine left_minor rfl ?_
      have h3 : stale { s.touch c with cb := upd s.cb i (if s.srcStopped then .fin else .inside), srcStopped := true } =
        stale s := rfl
      simp only [minor, h3]
      simp only [St.touch]
      split <;> omega
    | inside =>
      simp only [hp] at he
      split at he
      · cases he
      · simp only [Option.some.injEq] at he; subst he
        simp only [hp, crank] at h1 h2
        refine left_minor rfl ?_
        have h3 : stale { s.touch c with cb := upd s.cb i .fin } = stale s := rfl
        simp only [minor, h3]
        simp only [St.touch]
        omega
  | gpu ok =>
    simp only [step] at he
    cases hp : s.gpu with
    | queued o =>
      simp only [hp] at he
      split at he
      · simp only [Option.some.injEq] at he; subst he
        refine left_minor rfl ?_
        have h3 : stale { s with gpu := .ran, mem := s.mem.map fun _ => o } = stale s := rfl
        simp only [minor, h3, hp, grank]; omega
      · simp only [Option.some.injEq] at he; subst he
        refine left_minor rfl ?_
        have h3 : stale { s with gpu := .failed, gpuFailed := true } = stale s := rfl
        simp only [minor, h3, hp, grank]; omega
    | _ => simp [hp] at he
  | _ => cases ha

/-- **C84**. ... and only finitely many steps are possible without the child, the owners or a stop request: at most
`left c s` from every state. With `C84_never_stuck` and `C84_end`: every operation that is started is completed once the
child is. -/
theorem C84_bounded {c : Cfg} {s s' : St} (h : Reachable c s) (as : List Act) (ha : ∀ a ∈ as, internal a = true)
    (he : exec (step c) s as = some s') : as.length ≤ left c s :=
  run_bound internal (fun s => InvA c s ∧ InvD c s) (left c)
    (fun s a s' hi ha he => ⟨⟨invA_step c s a s' hi.1 he, invD_step c s a s' hi.1 hi.2 he⟩, left_lt hi.1 hi.2 ha he⟩)
    as s s' (invAD h) ha he

end Verif.NvSplit
