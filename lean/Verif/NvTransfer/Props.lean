import Verif.NvTransfer.Model
/-! # Transfers to and from a GPU stream (C105) -/
namespace Verif.NvTransfer

/-- Specification: the completions of the receiver, to the stream. -/
def completions (l : List Ev) : List Sig := l.filterMap fun e => match e with | .complete s => some s | _ => none
/-- Specification: the completions of the receiver, from the stream. -/
def completionsF (l : List Fv) : List Sig := l.filterMap fun e => match e with | .complete s => some s | _ => none
/-- Specification: what is stored, and where. -/
def constructed (l : List Ev) : List (Side × List Nat) := l.filterMap fun e => match e with | .construct d a => some (d, a) | _ => none
/-- Specification: where the storage is destroyed. -/
def destroyed (l : List Ev) : List Side := l.filterMap fun e => match e with | .destroy d => some d | _ => none
/-- Specification: `a` is followed by `b`. -/
def Before (l : List Ev) (a b : Ev) : Prop := ∃ p q, l = p ++ q ∧ a ∈ p ∧ b ∈ q

/-- No call fails that is made. -/
def Works (w : To) : Prop :=
  w.getDevice = 0 ∧ w.getAttr = 0 ∧ (w.managed = true → w.prefetch = 0) ∧ (w.copyable = true → w.launch = 0)

/-- The error of the first call that fails. -/
def FirstError (w : To) (c : Nat) : Prop :=
  c ≠ 0 ∧ (w.getDevice = c ∨ (w.getDevice = 0 ∧ w.getAttr = c) ∨ (w.getDevice = 0 ∧ w.getAttr = 0 ∧ w.managed = true ∧ w.prefetch = c)
    ∨ (w.getDevice = 0 ∧ w.getAttr = 0 ∧ (w.managed = true → w.prefetch = 0) ∧ w.copyable = true ∧ w.launch = c))

/-- **C105, to the stream.** The completion is passed on unchanged, once, if it delivers nothing or no call of the runtime fails; if one does,
    the receiver gets the error of the first that failed, once. There is no other case. -/
theorem C105_to (w : To) :
    (w.first.args = [] → completions (to w) = [w.first])
    ∧ (Works w → completions (to w) = [w.first])
    ∧ (∀ c, w.first.args ≠ [] → FirstError w c → completions (to w) = [⟨.error, [c]⟩])
    ∧ (Works w ∨ ∃ c, FirstError w c) := by
  obtain ⟨⟨tag, args⟩, copyable, trivial, g, a, managed, p, l, back⟩ := w
  refine ⟨?_, ?_, ?_, ?_⟩
  · intro h; simp only at h; simp [to, h, completions]
  · rintro ⟨h1, h2, h3, h4⟩
    simp only at h1 h2 h3 h4
    by_cases e : args = []
    · simp [to, e, completions]
    · cases copyable <;> cases trivial <;> cases managed <;> simp_all [to, completions, passed]
  · rintro c e ⟨hc, h⟩
    simp only at e h
    rcases h with h | ⟨h1, h⟩ | ⟨h1, h2, h3, h⟩ | ⟨h1, h2, h3, h4, h⟩
    · cases copyable <;> simp_all [to, completions, failed]
    · cases copyable <;> simp_all [to, completions, failed]
    · cases copyable <;> simp_all [to, completions, failed]
    · cases managed <;> simp_all [to, completions, failed]
  · unfold Works FirstError
    simp only
    by_cases h1 : g = 0
    case neg => exact .inr ⟨g, h1, .inl rfl⟩
    by_cases h2 : a = 0
    case neg => exact .inr ⟨a, h2, .inr (.inl ⟨h1, rfl⟩)⟩
    by_cases h3 : managed = true → p = 0
    case neg => exact .inr ⟨p, by simp at h3; exact h3.2, .inr (.inr (.inl ⟨h1, h2, by simp at h3; exact h3.1, rfl⟩))⟩
    by_cases h4 : copyable = true → l = 0
    case neg => exact .inr ⟨l, by simp at h4; exact h4.2, .inr (.inr (.inr ⟨h1, h2, h3, by simp at h4; exact h4.1, rfl⟩))⟩
    exact .inl ⟨h1, h2, h3, h4⟩

/-- **C105, to the stream.** What is delivered is stored once, on the device if it is trivially copyable, else on the host, before the receiver
    is completed; the storage is destroyed at most once, and exactly once if it was constructed and needs it; it is deallocated once, last. -/
theorem C105_storage (w : To) :
    (Works w → w.first.args ≠ [] → constructed (to w) = [(if w.copyable = true then .device else .host, w.first.args)]
      ∧ Before (to w) (.construct (if w.copyable = true then .device else .host) w.first.args) (.complete w.first))
    ∧ (destroyed (to w)).length ≤ (constructed (to w)).length
    ∧ (constructed (to w)).length ≤ 1
    ∧ (w.trivial = false → (destroyed (to w)).length = (constructed (to w)).length)
    ∧ (to w).count .dealloc = 1 ∧ (to w).getLast? = some .dealloc := by
  obtain ⟨⟨tag, args⟩, copyable, trivial, g, a, managed, p, l, back⟩ := w
  refine ⟨?_, ?_⟩
  · rintro ⟨h1, h2, h3, h4⟩ e
    simp only at h1 h2 h3 h4 e
    have hx : to ⟨⟨tag, args⟩, copyable, trivial, g, a, managed, p, l, back⟩
        = [.construct (if copyable = true then .device else .host) args] ++ passed ⟨⟨tag, args⟩, copyable, trivial, g, a, managed, p, l, back⟩ args := by
      cases copyable <;> cases managed <;> simp_all [to]
    rw [hx]
    refine ⟨?_, _, _, rfl, by simp, by simp [passed]⟩
    cases trivial <;> simp [passed, constructed]
  · by_cases e : args = []
    · simp [to, e, constructed, destroyed, List.count_cons]
    by_cases h1 : g = 0
    case neg => cases copyable <;> simp [to, e, h1, failed, constructed, destroyed, List.count_cons]
    by_cases h2 : a = 0
    case neg => cases copyable <;> simp [to, e, h1, h2, failed, constructed, destroyed, List.count_cons]
    by_cases h3 : managed = true ∧ p ≠ 0
    case pos => cases copyable <;> simp [to, e, h1, h2, h3.1, h3.2, failed, constructed, destroyed, List.count_cons]
    by_cases h4 : l = 0 <;> cases copyable <;> cases trivial <;>
      simp [to, e, h1, h2, h3, h4, failed, passed, constructed, destroyed, List.count_cons]

/-- A value that is trivially copyable, and one that is not. -/
def good (copyable : Bool) : To :=
  { first := ⟨.value, [7, 8]⟩, copyable := copyable, trivial := false, getDevice := 0, getAttr := 0, managed := true, prefetch := 0, launch := 0, back := false }

example : Works (good true) ∧ Works (good false) ∧ (good true).first.args ≠ []
    ∧ to (good true) = [.construct .device [7, 8], .complete ⟨.value, [7, 8]⟩, .destroy .device, .dealloc]
    ∧ to (good false) = [.construct .host [7, 8], .complete ⟨.value, [7, 8]⟩, .destroy .device, .dealloc]
    ∧ FirstError { good false with prefetch := 5 } 5
    ∧ to { good false with prefetch := 5 } = [.construct .host [7, 8], .destroy .host, .complete ⟨.error, [5]⟩, .dealloc] := by
  refine ⟨⟨rfl, rfl, fun _ => rfl, fun _ => rfl⟩, ⟨rfl, rfl, fun _ => rfl, fun h => by cases h⟩, by decide, by decide +kernel, by decide +kernel,
    ⟨by decide, .inr (.inr (.inl ⟨rfl, rfl, rfl, rfl⟩))⟩, by decide +kernel⟩

/-- **C105, the first finding.** Objects that were constructed on the host, because they are not trivially copyable, are destroyed on the
    device, unless somebody prefetches them to the host: the rites ask where the storage was prefetched last (common.cuh:711-725), and that is
    the device, or nowhere. -/
theorem C105_side_violated (w : To) (hw : Works w) (ha : w.first.args ≠ []) (hc : w.copyable = false) (ht : w.trivial = false)
    (hb : w.back = false) : constructed (to w) = [(.host, w.first.args)] ∧ destroyed (to w) = [.device] := by
  obtain ⟨h1, h2, h3, h4⟩ := hw
  have h5 : ¬ (w.managed = true ∧ w.prefetch ≠ 0) := fun h => h.2 (h3 h.1)
  simp [to, ha, h1, h2, h5, hc, passed, ht, hb, constructed, destroyed]

/-- Each side destroys what it has constructed, if what was constructed on the host is prefetched to the host. -/
theorem C105_side_partial (w : To) (h : w.copyable = false → w.back = true) (h' : w.copyable = true → w.back = false) (d : Side)
    (hd : d ∈ destroyed (to w)) : ∃ a, (d, a) ∈ constructed (to w) := by
  obtain ⟨⟨tag, args⟩, copyable, trivial, g, a, managed, p, l, back⟩ := w
  revert hd
  by_cases e : args = []
  · simp [to, e, destroyed]
  by_cases h1 : g = 0
  case neg => cases copyable <;> simp [to, e, h1, failed, constructed, destroyed]
  by_cases h2 : a = 0
  case neg => cases copyable <;> simp [to, e, h1, h2, failed, constructed, destroyed]
  by_cases h3 : managed = true ∧ p ≠ 0
  case pos => cases copyable <;> simp [to, e, h1, h2, h3.1, h3.2, failed, constructed, destroyed]
  by_cases h4 : l = 0 <;> cases copyable <;> cases trivial <;>
    (simp at h h'; simp [to, e, h1, h2, h3, h4, h, h', failed, passed, constructed, destroyed])

example : (good true).copyable = true ∧ (good true).back = false ∧ Side.device ∈ destroyed (to (good true)) := by decide +kernel

/-- **C105, from the stream.** An operation that is started completes its receiver exactly once: with what the sender delivered, on the same
    channel (an exception as `cudaErrorUnknown`), or with the error of what failed when it was set up. One that is not started does not. -/
theorem C105_from (w : From) :
    (w.started = false → completionsF («from» w) = [])
    ∧ (w.started = true → status w ≠ 0 → completionsF («from» w) = [⟨.error, [status w]⟩])
    ∧ (w.started = true → status w = 0 → (w.first.tag = .error → w.exception = false) → completionsF («from» w) = [w.first])
    ∧ (w.started = true → status w = 0 → w.first.tag = .error → w.exception = true → completionsF («from» w) = [⟨.error, [999]⟩]) := by
  obtain ⟨plain, s1, s2, s3, ts, st, ⟨tag, args⟩, ex⟩ := w
  refine ⟨?_, ?_, ?_, ?_⟩
  · intro h; simp only at h; subst h
    cases plain <;> cases s1 <;> cases s2 <;> cases s3 <;> simp [«from», built, gone, completionsF]
  · intro h h'; simp only at h; subst h
    cases s1 <;> cases s2 <;> cases s3 <;> simp [status] at h' <;> simp [«from», built, gone, completionsF, status, h']
  · intro h h' he; simp only at h he; subst h
    cases s1 <;> cases s2 <;> cases s3 <;> simp [status] at h'
    subst h'
    cases tag <;> simp at he <;> simp [«from», built, gone, completionsF, status, stored, he]
  · intro h h' he hx; simp only at h he hx; subst h he hx
    cases s1 <;> cases s2 <;> cases s3 <;> simp [status] at h'
    subst h'
    simp [«from», built, gone, completionsF, status, stored]

/-- **C105, from the stream.** The storage and the environment are freed exactly once if they were allocated. The task, too, if the operation
    is started and was set up without error, and, in the operation states of the algorithms, if it is not started. -/
theorem C105_free_partial (w : From) :
    («from» w).count .freeStorage = («from» w).count .storage ∧ («from» w).count .freeEnv = («from» w).count .env
    ∧ («from» w).count .storage ≤ 1 ∧ («from» w).count .task ≤ 1 ∧ («from» w).count .freeTask ≤ («from» w).count .task
    ∧ ((w.started = true ∧ status w = 0) ∨ (w.started = false ∧ w.plain = true) →
        («from» w).count .freeTask = («from» w).count .task) := by
  obtain ⟨plain, s1, s2, s3, ts, st, f, ex⟩ := w
  cases plain <;> cases s1 <;> cases s2 <;> cases s3 <;> cases st <;> by_cases ht : ts = 0 <;>
    simp [«from», built, gone, status, ht, List.count_cons]

example : «from» { plain := false, allocStorage := true, allocTask := true, allocEnv := true, taskStatus := 0, started := true, first := ⟨.value, [7]⟩, exception := false }
    = [.storage, .task, .env, .complete ⟨.value, [7]⟩, .freeTask, .freeEnv, .freeStorage] := by decide +kernel

/-- **C105, the second finding.** The task leaks if an operation that leaves the stream is connected and not started (`_schfr::opstate` has no
    destructor), and, everywhere, if the operation is started after its set-up failed behind the task. -/
theorem C105_task_violated (w : From) (hs : w.allocStorage = true) (ht : w.allocTask = true)
    (h : (w.started = false ∧ w.plain = false) ∨ (w.started = true ∧ status w ≠ 0)) :
    («from» w).count .task = 1 ∧ («from» w).count .freeTask = 0 := by
  obtain ⟨plain, s1, s2, s3, ts, st, f, ex⟩ := w
  simp only at hs ht; subst hs ht
  rcases h with ⟨h1, h2⟩ | ⟨h1, h2⟩
  · simp only at h1 h2; subst h1 h2
    cases s3 <;> simp [«from», built, gone, List.count_cons]
  · simp only at h1; subst h1
    cases s3 <;> cases plain <;> simp [status] at h2 <;> simp [«from», built, gone, status, h2, List.count_cons]

example : ∃ w : From, w.allocStorage = true ∧ w.allocTask = true ∧ w.plain = true ∧ w.started = true ∧ status w ≠ 0 :=
  ⟨{ plain := true, allocStorage := true, allocTask := true, allocEnv := false, taskStatus := 0, started := true, first := ⟨.value, [7]⟩, exception := false },
    rfl, rfl, rfl, rfl, by decide⟩

end Verif.NvTransfer
