import Verif.StopSource.Props
import Verif.ListSum
import Verif.Run
/-! # `inplace_stop_source` — C48: no deadlock, and every call ends once callbacks return

C48: no interleaving of `request_stop`, callback constructors and callback destructors (including
those made from inside callbacks) blocks for ever: whenever a call is in progress some thread can
take a step or some callback's own function is still running, and if callbacks' functions return and
no new calls are made, all calls return after finitely many steps.
-/
namespace Verif.StopSource

/-- The spin lock's holder is a thread whose innermost frame is in a critical section. -/
def HoldTop (s : St) : Prop :=
  ∀ t, s.holder = some t → ∃ f r, s.stk t = f :: r ∧ f.holds = true

theorem userTop_holds {f : Frame} {r : List Frame} (h : userTop (f :: r) = true) :
    f.holds = false := by
  cases f <;> first | rfl | cases h

set_option maxHeartbeats 1000000 in
theorem holdTop_step {s s' : St} {a : Act} (h : HoldTop s) (hs : step s a = some s')
    (hi : Inv s) : HoldTop s' := by
  have key : ∀ (t : Tid) (l : List Frame), s'.stk = upd s.stk t l →
      (s'.holder = s.holder ∧ (∀ f r, s.stk t = f :: r → f.holds = false) ∨
        s'.holder = none ∨
        (s'.holder = some t ∧ ∃ f r, l = f :: r ∧ f.holds = true) ∨
        (s'.holder = s.holder ∧ ∃ f r, l = f :: r ∧ f.holds = true)) → HoldTop s' := by
    intro t l hstk hc t1 ht1
    rw [hstk]
    rcases hc with ⟨hh, hn⟩ | hh | ⟨hh, hl⟩ | ⟨hh, hl⟩
    · rw [hh] at ht1
      obtain ⟨f, r, h1, h2⟩ := h t1 ht1
      by_cases hx : t1 = t
      · subst hx; simp [hn f r h1] at h2
      · rw [upd_other _ _ hx]; exact ⟨f, r, h1, h2⟩
    · rw [hh] at ht1; cases ht1
    · rw [hh] at ht1; cases ht1; simpa using hl
    · by_cases hx : t1 = t
      · subst hx; simpa using hl
      · rw [upd_other _ _ hx]; rw [hh] at ht1; exact h t1 ht1
  have same : s'.stk = s.stk → s'.holder = s.holder → HoldTop s' := by
    intro h1 h2 t ht; rw [h1]; exact h t (h2 ▸ ht)
  cases a with
  | callReq t =>
      simp only [step] at hs; split at hs <;> simp at hs
      rename_i hu
      subst hs
      refine key t _ rfl (.inl ⟨rfl, ?_⟩)
      intro f r hk; rw [hk] at hu; exact userTop_holds hu
  | callAdd t c =>
      simp only [step] at hs; split at hs <;> simp at hs
      rename_i hu
      subst hs
      refine key t _ rfl (.inl ⟨rfl, ?_⟩)
      intro f r hk; replace hu := hu.1; rw [hk] at hu; exact userTop_holds hu
  | callRm t c =>
      simp only [step] at hs; split at hs <;> simp at hs
      rename_i hu
      subst hs
      refine key t _ rfl (.inl ⟨rfl, ?_⟩)
      intro f r hk; replace hu := hu.1; rw [hk] at hu; exact userTop_holds hu
  | dropInline t c =>
      simp only [step] at hs; split at hs <;> simp at hs
      subst hs
      exact same rfl rfl
  | ret t =>
      simp only [step] at hs; split at hs <;> simp at hs
      · rename_i hk; subst hs
        refine key t _ rfl (.inl ⟨rfl, ?_⟩); intro f r hk2; rw [hk] at hk2; cases hk2; rfl
      · rename_i hk; subst hs
        refine key t _ rfl (.inl ⟨rfl, ?_⟩); intro f r hk2; rw [hk] at hk2; cases hk2; rfl
  | adv t =>
      simp only [step, adv] at hs
      split at hs
      · cases hs
      · rename_i f r hk
        have hn : f.holds = false → ∀ f' r', s.stk t = f' :: r' → f'.holds = false := by
          intro hf f' r' hk2; rw [hk] at hk2; cases hk2; exact hf
        cases f <;> simp only [touch] at hs <;> (try split at hs) <;> (try split at hs) <;>
          (try (cases hs; done)) <;>
          (simp only [Option.some.injEq] at hs; subst hs) <;>
          first
          | exact key t _ rfl (.inl ⟨rfl, hn rfl⟩)
          | exact key t _ rfl (.inr (.inl rfl))
          | exact key t _ rfl (.inr (.inr (.inl ⟨rfl, _, _, rfl, rfl⟩)))
          | exact key t _ rfl (.inr (.inr (.inr ⟨rfl, _, _, rfl, rfl⟩)))

theorem holdTop_reach {s : St} (h : Reachable s) : HoldTop s := by
  refine Reach.inv' HoldTop ?_ ?_ s h
  · intro t ht; cases ht
  · intro s a s' hr h1 hs; exact holdTop_step h1 hs (inv_reach hr)

/-- A frame in a critical section always has a next step: the lock is released without waiting. -/
theorem holds_adv {s : St} {t : Tid} {f : Frame} {r : List Frame} (hk : s.stk t = f :: r)
    (hf : f.holds = true) : (step s (.adv t)).isSome = true := by
  cases f <;> simp_all [step, adv]
  · split <;> simp
  · split <;> simp

/-- C48 (no deadlock). If a call to the API is in progress on some thread (and that thread is not
    inside a callback's function), then some thread can take a step inside the API, or the thread
    that is notifying is executing a callback's own function. -/
theorem C48_no_deadlock (s : St) (h : Reachable s) (t : Tid) (f : Frame) (r : List Frame)
    (hk : s.stk t = f :: r) (hf : f.isRunning = false) :
    (∃ t', (step s (.adv t')).isSome = true) ∨
    (∃ t' c r', s.stk t' = .reqRunning c :: r' ∨ s.stk t' = .addInline c :: r') := by
  have hi := inv_reach h
  by_cases hl : s.locked = true
  · obtain ⟨u, hu⟩ := Option.isSome_iff_exists.1 (hi.lk.1 hl)
    obtain ⟨g, r', h1, h2⟩ := holdTop_reach h u hu
    exact .inl ⟨u, holds_adv h1 h2⟩
  · have hl : s.locked = false := by simpa using hl
    have nw : ∀ u g r', s.stk u = g :: r' → g.isRunning = false → (∀ c, g ≠ .rmWait c) →
        (step s (.adv u)).isSome = true := by
      intro u g r' h1 h2 h3
      cases g <;> simp_all [step, adv] <;> (repeat' split) <;> simp_all
    by_cases hw : ∃ c, f = .rmWait c
    · obtain ⟨c, rfl⟩ := hw
      cases hc : s.completed c with
      | true => exact .inl ⟨t, by simp [step, adv, hk, hc]⟩
      | false =>
          obtain ⟨t', g, hne, hg, hcur⟩ := C03_waits_only_for_running s h t c (by simp [hk]) hc
          cases hk' : s.stk t' with
          | nil => simp [hk'] at hg
          | cons g' r' =>
              cases hr : g'.isRunning with
              | true =>
                  right
                  cases g' <;> first | (cases hr; done) | skip
                  · exact ⟨t', _, _, Or.inl hk'⟩
                  · exact ⟨t', _, _, Or.inr hk'⟩
              | false =>
                  left
                  refine ⟨t', nw t' g' r' hk' hr ?_⟩
                  rintro c' rfl
                  have hwin := (hi.act t' g hg (active_of_cur hcur)).1
                  exact (hi.fRmWait t' c' (by simp [hk'])).2.2 hwin
    · exact .inl ⟨t, nw t f r hk hf (fun c hc => hw ⟨c, hc⟩)⟩

/-! ## Termination -/

/-- Steps a frame can still take, given that every list node costs 6. -/
def Frame.wt : Frame → Nat
  | .reqTry => 3 | .reqWon => 2 | .reqLoop => 1 | .reqExec _ => 6 | .reqRunning _ => 5
  | .reqAfter _ => 4 | .reqMark _ => 3 | .reqRelock => 2
  | .addTry _ => 8 | .addLocked _ => 7 | .addInline _ => 1
  | .rmLock _ => 5 | .rmLocked _ => 4 | .rmElse _ _ => 3 | .rmSelf _ => 1 | .rmWait _ => 1

def stkWt : List Frame → Nat
  | [] => 0
  | f :: r => f.wt + stkWt r

/-- Not a new call: a step inside the API, or the return of a callback's function. -/
def Act.isProgress : Act → Bool
  | .adv _ | .ret _ => true
  | _ => false

theorem progress_dec {s s' : St} {a : Act} (ha : a.isProgress = true) (hs : step s a = some s') :
    ∃ t l, s.stk t ≠ [] ∧ s'.stk = upd s.stk t l ∧
      stkWt l + 6 * s'.callbacks.length < stkWt (s.stk t) + 6 * s.callbacks.length := by
  cases a with
  | callReq t => cases ha
  | callAdd t c => cases ha
  | callRm t c => cases ha
  | dropInline t c => cases ha
  | ret t =>
      simp only [step] at hs; split at hs <;> simp at hs
      all_goals rename_i hk; subst hs
      · exact ⟨t, _, by simp [hk], rfl, by simp [hk, stkWt, Frame.wt]⟩
      · exact ⟨t, _, by simp [hk], rfl, by simp [hk, stkWt, Frame.wt]⟩
  | adv t =>
      simp only [step, adv] at hs
      split at hs
      · cases hs
      · rename_i f r hk
        cases f <;> simp only [touch] at hs <;> (try split at hs) <;> (try split at hs) <;>
          (try (cases hs; done)) <;>
          (simp only [Option.some.injEq] at hs; subst hs) <;>
          refine ⟨t, _, by simp [hk], rfl, ?_⟩ <;> simp_all [stkWt, Frame.wt] <;>
          (try (have := List.length_erase_le (a := ‹Cb›) (l := s.callbacks))) <;> omega

/-- Only finitely many threads are inside the API. -/
theorem finite_stk {s : St} (h : Reachable s) : ∃ ts : List Tid, ts.Nodup ∧
    ∀ t, s.stk t ≠ [] → t ∈ ts := by
  refine Reach.inv (fun s => ∃ ts : List Tid, ts.Nodup ∧ ∀ t, s.stk t ≠ [] → t ∈ ts) ?_ ?_ s h
  · exact ⟨[], by simp, by simp [init]⟩
  · rintro s a s' ⟨ts, hn, ht⟩ hs
    have key : ∀ t l, s'.stk = upd s.stk t l → ∃ ts : List Tid, ts.Nodup ∧ ∀ t, s'.stk t ≠ [] → t ∈ ts := by
      intro t l hk
      by_cases hm : t ∈ ts
      · refine ⟨ts, hn, ?_⟩
        intro u hu; rw [hk] at hu
        by_cases hx : u = t
        · subst hx; exact hm
        · rw [upd_other _ _ hx] at hu; exact ht u hu
      · refine ⟨t :: ts, by simp [hm, hn], ?_⟩
        intro u hu; rw [hk] at hu
        by_cases hx : u = t
        · subst hx; simp
        · rw [upd_other _ _ hx] at hu; simp [ht u hu]
    by_cases hp : a.isProgress = true
    · obtain ⟨t, l, -, h1, -⟩ := progress_dec hp hs
      exact key t l h1
    · cases a <;> simp [Act.isProgress] at hp <;> simp only [step] at hs <;> split at hs <;>
        simp at hs <;> subst hs
      · exact key _ _ rfl
      · exact key _ _ rfl
      · exact key _ _ rfl
      · exact ⟨ts, hn, ht⟩

theorem progress_bound (ts : List Tid) (hn : ts.Nodup) : ∀ (acts : List Act) (s s' : St),
    (∀ t, s.stk t ≠ [] → t ∈ ts) → (∀ a ∈ acts, a.isProgress = true) →
    exec step s acts = some s' →
    acts.length ≤ lsum stkWt s.stk ts + 6 * s.callbacks.length
  | [], _, _, _, _, _ => by simp
  | a :: as, s, s', ht, ha, he => by
      simp only [exec] at he
      split at he
      · rename_i s1 h1
        obtain ⟨t, l, hne, hk, hlt⟩ := progress_dec (ha a (by simp)) h1
        have hin := ht t hne
        have ht1 : ∀ t, s1.stk t ≠ [] → t ∈ ts := by
          intro u hu; rw [hk] at hu
          by_cases hx : u = t
          · subst hx; exact hin
          · rw [upd_other _ _ hx] at hu; exact ht u hu
        have ih := progress_bound ts hn as s1 s' ht1 (fun b hb => ha b (by simp [hb])) he
        have := lsum_upd_in stkWt s.stk (b := l) hn hin
        rw [hk] at ih
        simp only [List.length_cons]
        omega
      · cases he

/-- C48 (termination). From every reachable state there is a bound on the number of steps the calls
    in progress can take, whatever the interleaving, when no new calls are made. -/
theorem C48_terminates (s : St) (h : Reachable s) :
    ∃ N, ∀ (acts : List Act) (s' : St), (∀ a ∈ acts, a.isProgress = true) →
      exec step s acts = some s' → acts.length ≤ N := by
  obtain ⟨ts, hn, ht⟩ := finite_stk h
  exact ⟨_, fun acts s' ha he => progress_bound ts hn acts s s' ht ha he⟩

/-- C48 (all calls return). If no thread can take a step inside the API and no callback's function
    is still running, then no call is in progress on any thread. With `C48_terminates`: once
    callbacks' functions return and no new calls are made, every schedule that keeps running enabled
    threads brings every call to its return after finitely many steps. -/
theorem C48_all_return (s : St) (h : Reachable s)
    (hq : ∀ a : Act, a.isProgress = true → step s a = none) (t : Tid) : s.stk t = [] := by
  cases hk : s.stk t with
  | nil => rfl
  | cons f r =>
      exfalso
      have hrun : ∀ u c r', ¬(s.stk u = .reqRunning c :: r' ∨ s.stk u = .addInline c :: r') := by
        rintro u c r' (hu | hu) <;> have := hq (.ret u) rfl <;> simp [step, hu] at this
      cases hf : f.isRunning with
      | true => cases f <;> simp_all
      | false =>
          rcases C48_no_deadlock s h t f r hk hf with ⟨u, hu⟩ | ⟨u, c, r', hu⟩
          · simp [hq (.adv u) rfl] at hu
          · exact hrun u c r' hu

/-- From every reachable state there is a way to finish: every call in progress can be brought to its
    return by running the threads (and letting callbacks' functions return). -/
theorem C48_can_finish (s : St) (h : Reachable s) :
    ∃ acts s', (∀ a ∈ acts, a.isProgress = true) ∧ exec step s acts = some s' ∧
      ∀ t, s'.stk t = [] := by
  obtain ⟨N, hN⟩ := C48_terminates s h
  obtain ⟨as, s', h1, h2, h3⟩ := run_to_stuck Act.isProgress s N hN
  exact ⟨as, s', h1, h2, C48_all_return s' (Reach.trans_exec as s s' h h2) h3⟩

/-- A destructor waiting for a callback that runs on another thread, which is itself inside a nested
    destructor call: the hypotheses of C48 are met by a busy state. -/
example : ∃ s, Reachable s ∧ s.stk 0 = [.rmWait 7] ∧ s.stk 1 = [.rmLock 9, .reqRunning 7] ∧
    step s (.adv 0) = none :=
  ⟨_, .of_exec [.callAdd 0 9, .adv 0, .adv 0, .callAdd 0 7, .adv 0, .adv 0, .callReq 1, .adv 1,
    .adv 1, .adv 1, .adv 1, .callRm 0 7, .adv 0, .adv 0, .adv 0, .callRm 1 9] rfl, rfl, rfl, rfl⟩

end Verif.StopSource
