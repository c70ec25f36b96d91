import Verif.Task.Progress
import Verif.Run
import Verif.Count
/-!
# C54: `stdexec::task`

The theorems hold for every program (a body and the types of the tasks in it) that is `Ok`: no awaited
sender resumes the coroutine inside its own stop callback (this is what `affine` on a scheduler that does
not complete inline ensures), or no task in the program translates stop tokens.  What happens otherwise is
`stop_source_destroyed_in_use`.
-/
namespace Verif.Task
set_option maxHeartbeats 4000000

/-- The coroutine that is running or suspended, the one that awaits it, and so on. -/
inductive Chain (s : St) : Nat → Prop
  | top {i : Nat} : top s.ctl = some i → Chain s i
  | up {i p : Nat} : Chain s i → (s.fr i).parent = some p → Chain s p

theorem chain_mem {b0 : Body} {s : St} {l : List Nat} (h : Inv b0 s l) {i : Nat} (hc : Chain s i) : i ∈ l := by
  induction hc with
  | top ht => obtain ⟨t, rfl⟩ := h.top_cons ht; simp
  | up _ hp ih => exact List.mem_of_mem_tail (Link_parent_mem h.link _ ih _ hp)

theorem mem_chain {s : St} : ∀ {l : List Nat}, Link s.fr l → (∀ i, l.head? = some i → Chain s i) →
    ∀ i ∈ l, Chain s i
  | [], _, _, i, hi => by simp at hi
  | a :: t, hl, hh, i, hi => by
      have ha := hh a rfl
      rcases List.mem_cons.1 hi with he | hi
      · rw [he]; exact ha
      · refine mem_chain (Link_tail hl) ?_ i hi
        intro p hp
        have := Link_parent hl
        rw [hp] at this
        exact .up ha this

theorem chain_iff {b0 : Body} {s : St} {l : List Nat} (h : Inv b0 s l) (i : Nat) : Chain s i ↔ i ∈ l :=
  ⟨chain_mem h, mem_chain h.link (fun j hj => .top (by rw [← h.hd]; exact hj)) i⟩

/-- **C54.** The operation completes with the outcome that the body has as ordinary structured code, given
the outcomes of the awaited senders: values and exceptions of awaited tasks arrive at the `co_await`, a
stopped sender or task ends every coroutine above it. -/
theorem outcome_partial {c : Cfg} {b : Body} {x : Nat} {ins : Bool} (hok : Ok c b ins) {s : St}
    (h : Reach (init c b x ins) step s) {o : Out} (hf : s.ctl = .fin o) :
    denRoot b s.log = some (o, []) := by
  obtain ⟨l, hi⟩ := inv_reach hok h
  have := hi.sem []
  rw [hf] at this
  simpa [sem] using this

/-- **C54.** The receiver is completed only once everything the body needs has happened: while the
operation is running its outcome is not yet determined by what has happened, unless it only has to unwind. -/
theorem no_early_outcome_partial {c : Cfg} {b : Body} {x : Nat} {ins : Bool} (hok : Ok c b ins) {s : St}
    (h : Reach (init c b x ins) step s) {i : Nat} {a : Bool} (hf : s.ctl = .sus i a) :
    denRoot b s.log = none := by
  obtain ⟨l, hi⟩ := inv_reach hok h
  have := hi.sem []
  rw [hf] at this
  simpa [sem, den] using this

/-- **C54.** Nothing destroyed is used: no coroutine frame, awaiter or stop source, by the coroutines or by
the thread that requests stop; no frame is destroyed that still owns a coroutine or a registered callback. -/
theorem no_use_after_destroy_partial {c : Cfg} {b : Body} {x : Nat} {ins : Bool} (hok : Ok c b ins) {s : St}
    (h : Reach (init c b x ins) step s) : s.bad = false := by
  obtain ⟨l, hi⟩ := inv_reach hok h
  exact hi.bad

/-- **C54.** At every moment exactly the coroutines from the active one down to the root exist; every other
one that was created has been destroyed exactly once.  In particular a task is destroyed before the
`co_await` on it returns, and all are destroyed when the operation has completed. -/
theorem lifetimes_partial {c : Cfg} {b : Body} {x : Nat} {ins : Bool} (hok : Ok c b ins) {s : St}
    (h : Reach (init c b x ins) step s) (i : Nat) (hi : i < s.n) :
    (Chain s i → (s.fr i).alive = true ∧ (s.fr i).destroyed = 0) ∧
    (¬ Chain s i → (s.fr i).alive = false ∧ (s.fr i).destroyed = 1) := by
  obtain ⟨l, hv⟩ := inv_reach hok h
  rw [chain_iff hv]
  exact ⟨fun hm => ⟨(hv.live i hm).1, (hv.live i hm).2.1⟩, fun hm => ⟨(hv.gone i hi hm).1, (hv.gone i hi hm).2.1⟩⟩

theorem all_destroyed_partial {c : Cfg} {b : Body} {x : Nat} {ins : Bool} (hok : Ok c b ins) {s : St}
    (h : Reach (init c b x ins) step s) {o : Out} (hf : s.ctl = .fin o) (i : Nat) (hi : i < s.n) :
    (s.fr i).alive = false ∧ (s.fr i).destroyed = 1 ∧ (s.fr i).awAlive = false ∧ (s.fr i).owns = false ∧
    (s.fr i).cb = false := by
  obtain ⟨l, hv⟩ := inv_reach hok h
  have hl : l = [] := by
    have := hv.hd; rw [hf] at this; simp [top] at this; exact this
  have hg := hv.gone i hi (by simp [hl])
  refine ⟨hg.1, hg.2.1, ?_, hg.2.2.1, hg.2.2.2⟩
  cases hx : (s.fr i).awAlive with
  | false => rfl
  | true =>
    obtain ⟨p, hp, _⟩ := hv.aws i hx (by simp [hl])
    rw [hf] at hp; cases hp

/-- **C54.** A stop callback is registered only while its task is started and not completed: never in a
coroutine that is gone, and the parent resumes only after it was deregistered. -/
theorem callback_scope_partial {c : Cfg} {b : Body} {x : Nat} {ins : Bool} (hok : Ok c b ins) {s : St}
    (h : Reach (init c b x ins) step s) (i : Nat) (hcb : (s.fr i).cb = true) :
    Chain s i ∧ (s.fr i).cfg.own = true ∧ s.ctl ≠ .resume i ∧ s.ctl ≠ .cancel2 i := by
  obtain ⟨l, hv⟩ := inv_reach hok h
  have hm : i ∈ l := by
    by_cases hn : i < s.n
    · by_cases hl : i ∈ l
      · exact hl
      · have := (hv.gone i hn hl).2.2.2; rw [hcb] at this; cases this
    · have := (hv.fresh i (by omega)).2.2.2.1; rw [hcb] at this; cases this
  have h1 := hv.cbs i hm
  rw [hcb] at h1
  refine ⟨(chain_iff hv i).2 hm, ?_, ?_, ?_⟩
  · cases hx : (s.fr i).cfg.own <;> simp [hx] at h1 ⊢
  · intro he; rw [he] at h1; simp [top, noCb] at h1
  · intro he; rw [he] at h1; simp [top, noCb] at h1

/-- A token of the chain is requested to stop exactly when the receiver's is. -/
theorem tok_req {b0 : Body} {s : St} {l : List Nat} (h : Inv b0 s l) (hctl : noCb s.ctl = false)
    (ho : s.stop = .over) : ∀ {t : List Nat}, (∀ i ∈ t, i ∈ l) → Link s.fr t → ∀ i ∈ t,
    reqOf s (s.fr i).tok = true
  | [], _, _, i, hi => by simp at hi
  | a :: t, hsub, hl, i, hi => by
      rcases List.mem_cons.1 hi with he | hi
      · subst he
        have him := hsub i (by simp)
        have htok : tokOf s.fr i (outer s i) := by
          have hp := Link_parent hl
          cases t with
          | nil => simp only [List.head?_nil] at hp; unfold outer; rw [hp]; exact hl.2
          | cons p t => simp only [List.head?_cons] at hp; unfold outer; rw [hp]; exact hl.2.1
        have hout : reqOf s (outer s i) = true := by
          cases t with
          | nil =>
            have hp := Link_parent hl
            simp only [List.head?_nil] at hp
            simp [outer, hp, reqOf, ho]
          | cons p t =>
            have hp := Link_parent hl
            simp only [List.head?_cons] at hp
            have := tok_req h hctl ho (t := p :: t) (fun j hj => hsub j (List.mem_cons_of_mem _ hj))
              (Link_tail hl) p (by simp)
            simp only [outer, hp]; exact this
        unfold tokOf at htok
        by_cases hown : (s.fr i).cfg.own = true
        · rw [if_pos hown] at htok
          rw [htok]
          have hcb : (s.fr i).cb = true := by rw [h.cbs i him]; simp [hown, hctl]
          cases hr : (s.fr i).req with
          | true => simp [reqOf, hr]
          | false =>
            obtain ⟨stk, h1, _⟩ := h.req2 i him hcb hr hout
            rw [ho] at h1; cases h1
        · rw [if_neg hown] at htok
          rw [htok]; exact hout
      · exact tok_req h hctl ho (fun j hj => hsub j (List.mem_cons_of_mem _ hj)) (Link_tail hl) i hi

theorem tok_req_only {b0 : Body} {s : St} {l : List Nat} (h : Inv b0 s l) (hctl : noCb s.ctl = false) :
    ∀ {t : List Nat}, (∀ i ∈ t, i ∈ l) → Link s.fr t → ∀ i ∈ t, reqOf s (s.fr i).tok = true → s.stop ≠ .idle
  | [], _, _, i, hi, _ => by simp at hi
  | a :: t, hsub, hl, i, hi, hr => by
      rcases List.mem_cons.1 hi with he | hi
      · subst he
        have him := hsub i (by simp)
        have htok : tokOf s.fr i (outer s i) := by
          have hp := Link_parent hl
          cases t with
          | nil => simp only [List.head?_nil] at hp; unfold outer; rw [hp]; exact hl.2
          | cons p t => simp only [List.head?_cons] at hp; unfold outer; rw [hp]; exact hl.2.1
        have hout : reqOf s (outer s i) = true → s.stop ≠ .idle := by
          cases t with
          | nil =>
            have hp := Link_parent hl
            simp only [List.head?_nil] at hp
            simp [outer, hp, reqOf]
          | cons p t =>
            have hp := Link_parent hl
            simp only [List.head?_cons] at hp
            simp only [outer, hp]
            exact tok_req_only h hctl (t := p :: t) (fun j hj => hsub j (List.mem_cons_of_mem _ hj))
              (Link_tail hl) p (by simp)
        unfold tokOf at htok
        by_cases hown : (s.fr i).cfg.own = true
        · rw [if_pos hown] at htok
          rw [htok] at hr
          have hcb : (s.fr i).cb = true := by rw [h.cbs i him]; simp [hown, hctl]
          exact hout (h.req1 i him hcb hr)
        · rw [if_neg hown] at htok
          rw [htok] at hr; exact hout hr
      · exact tok_req_only h hctl (fun j hj => hsub j (List.mem_cons_of_mem _ hj)) (Link_tail hl) i hi hr

/-- **C54.** Stop requests reach every coroutine: once `request_stop` on the receiver's token has returned,
the stop token of every coroutine that is running or waiting -- also of tasks started afterwards -- reports
the request; and none reports a request that was not made. -/
theorem stop_forwarded_partial {c : Cfg} {b : Body} {x : Nat} {ins : Bool} (hok : Ok c b ins) {s : St}
    (h : Reach (init c b x ins) step s) (hr : (∃ i, s.ctl = .run i) ∨ (∃ i a, s.ctl = .sus i a))
    (i : Nat) (hi : Chain s i) :
    (s.stop = .over → reqOf s (s.fr i).tok = true) ∧ (reqOf s (s.fr i).tok = true → s.stop ≠ .idle) := by
  obtain ⟨l, hv⟩ := inv_reach hok h
  have hctl : noCb s.ctl = false := by
    rcases hr with ⟨j, hj⟩ | ⟨j, a, hj⟩ <;> rw [hj] <;> rfl
  have hm := (chain_iff hv i).1 hi
  exact ⟨fun ho => tok_req hv hctl ho (fun _ h => h) hv.link i hm,
    tok_req_only hv hctl (fun _ h => h) hv.link i hm⟩

/-! ## Scheduler affinity -/

/-- The start scheduler is made from the awaiting environment's and does not complete inline. -/
def Derived (c : Cfg) : Prop := c.sch = none ∧ c.inl = false

structure Aff (x : Nat) (s : St) : Prop where
  ctx : s.ctx = x
  sch : ∀ i, i < s.n → (s.fr i).sch = x

theorem aff_step {x : Nat} {s s' : St} {a : Act} (ha : AllInv Derived s) (h : Aff x s)
    (ht : ∀ i, top s.ctl = some i → i < s.n) (hp : ∀ i p, (s.fr i).parent = some p → p < s.n)
    (hs : step s a = some s') :
    Aff x s' ∧ (∀ i, top s'.ctl = some i → i < s'.n) ∧ (∀ i p, (s'.fr i).parent = some p → p < s'.n) := by
  have hctx : s'.ctx = x := by
    rcases ctx_step hs with h1 | ⟨i, aff, y, h1, h2⟩
    · rw [h1, h.ctx]
    · have hi : i < s.n := ht i (by rw [h1]; rfl)
      rw [h2, (ha.cfg i hi).2]
      simp [h.ctx, h.sch i hi]
  rcases shape hs with ⟨⟨hn, hf⟩, htop⟩ | ⟨i, c, b, k, hc, hb, rfl⟩
  · refine ⟨⟨hctx, fun i hi => ?_⟩, fun i hi => ?_, fun i p hpp => ?_⟩
    · rw [(hf i).1]; exact h.sch i (by omega)
    · rw [hn]
      rcases htop i hi with h1 | ⟨j, _, h2⟩
      · exact ht i h1
      · exact hp j i h2
    · rw [hn]; rw [(hf i).2] at hpp; exact hp i p hpp
  · have hi : i < s.n := ht i (by rw [hc]; rfl)
    have hcs : c.sch = none := by
      have := ha.body i
      rw [hb] at this
      exact this.1.1
    refine ⟨⟨hctx, fun j hj => ?_⟩, fun j hj => ?_, fun j p hpp => ?_⟩
    · simp only [newTask, upd] at hj ⊢
      split
      · simp [fr0, hcs, h.sch i hi]
      · split
        · exact h.sch i hi
        · exact h.sch j (by omega)
    · simp only [newTask, top, Option.some.injEq] at hj ⊢; omega
    · simp only [newTask, upd] at hpp ⊢
      split at hpp
      · simp only [fr0, Option.some.injEq] at hpp; omega
      · split at hpp
        · have := hp i p hpp; omega
        · have := hp j p hpp; omega

/-- **C54.** If every task's start scheduler is made from the scheduler of the environment that awaits it
and does not complete inline, every coroutine always runs on the context it was started on: in particular
after every `co_await`, wherever the awaited sender completed. -/
theorem affinity_partial {c : Cfg} {b : Body} {x : Nat} {ins : Bool} (hc : Derived c) (hb : All Derived b)
    {s : St} (h : Reach (init c b x ins) step s) : s.ctx = x ∧ ∀ i, i < s.n → (s.fr i).sch = x := by
  have key : AllInv Derived s ∧ Aff x s ∧ (∀ i, top s.ctl = some i → i < s.n) ∧
      (∀ i p, (s.fr i).parent = some p → p < s.n) := by
    refine Reach.inv (fun s => AllInv Derived s ∧ Aff x s ∧ (∀ i, top s.ctl = some i → i < s.n) ∧
      (∀ i p, (s.fr i).parent = some p → p < s.n)) ?_ ?_ s h
    · refine ⟨all_init hc hb x ins, ⟨rfl, ?_⟩, ?_, ?_⟩
      · intro i hi
        have : i = 0 := by simp [init] at hi; exact hi
        subst this; simp [init, fr0, hc.1]
      · intro i hi; simp [init, top] at hi ⊢; omega
      · intro i p hp
        simp only [init, upd] at hp
        split at hp
        · simp [fr0] at hp
        · simp [none0, fr0] at hp
    · rintro s a s' ⟨ha, haf, ht, hp⟩ hs
      refine ⟨all_step ha hs, ?_⟩
      exact aff_step ha haf ht hp hs
  exact ⟨key.2.1.ctx, key.2.1.sch⟩

/-! ## Progress -/

/-- **C54.** Between two decisions of the environment the coroutines and the thread that requests stop take
only finitely many steps, in every interleaving. -/
theorem no_livelock {c : Cfg} {b : Body} {x : Nat} {ins : Bool} {s : St} (h : Reach (init c b x ins) step s)
    (f : Nat → St) (h0 : f 0 = s) :
    ¬ ∀ m, ∃ a, (a = .exec ∨ (∃ e, a = .regThrows e) ∨ (∃ i, a = .enter i) ∨ a = .ret) ∧
      step (f m) a = some (f (m + 1)) := by
  intro hf
  obtain ⟨l, hl⟩ := li_reach h
  have hacc : Acc Int s := acc_int _ s l hl rfl
  subst h0
  have key : ∀ t, Acc Int t → ∀ m, f m = t → False := by
    intro t ht
    induction ht with
    | intro t _ ih =>
      rintro m rfl
      obtain ⟨a, ha, hs⟩ := hf m
      refine ih (f (m + 1)) ⟨a, ?_, hs⟩ (m + 1) rfl
      rcases ha with rfl | ⟨e, rfl⟩ | ⟨i, rfl⟩ | rfl <;> rfl
  exact key _ hacc 0 rfl

/-- **C54.** They never get stuck: when none of them can go on, `request_stop` has returned (or was not
called) and the operation has completed or waits for an awaited sender. -/
theorem not_stuck {c : Cfg} {b : Body} {x : Nat} {ins : Bool} {s : St} (h : Reach (init c b x ins) step s)
    (hs : ∀ a, (a = .exec ∨ (∃ i, a = .enter i) ∨ a = .ret) → step s a = none) :
    (s.stop = .idle ∨ s.stop = .over) ∧ ((∃ o, s.ctl = .fin o) ∨ ∃ i a, s.ctl = .sus i a) := by
  have hint : ∀ s', ¬ Int s' s := by
    rintro s' ⟨a, ha, he⟩
    cases a with
    | exec => rw [hs .exec (.inl rfl)] at he; cases he
    | enter i => rw [hs (.enter i) (.inr (.inl ⟨i, rfl⟩))] at he; cases he
    | ret => rw [hs .ret (.inr (.inr rfl))] at he; cases he
    | regThrows e =>
      have h1 := hs .exec (.inl rfl)
      simp only [step] at he h1
      split at he
      case h_2 => cases he
      rename_i i hc
      simp [hc] at h1
    | leaf o x i => cases ha
    | stop => cases ha
  have hq : quiet s.ctl = true → s.same = false :=
    Reach.inv (fun s => quiet s.ctl = true → s.same = false) (fun hx => by simp [init])
      (fun _ _ _ h hs => quiet_step h hs) s h
  have hb : ∀ i, blocked s i = false := by
    intro i
    cases hx : blocked s i with
    | false => rfl
    | true =>
      obtain ⟨h1, stk, h2⟩ := blocked_act hx
      obtain ⟨s', h3⟩ := stopper_step h1 h2
      exact absurd h3 (hint s')
  have hctl : quiet s.ctl = true := by
    have h1 := hs .exec (.inl rfl)
    cases hc : s.ctl <;> simp [step, hc, hb, quiet] at h1 ⊢
    split at h1 <;> cases h1
  refine ⟨?_, ?_⟩
  · cases hst : s.stop with
    | idle => exact .inl rfl
    | over => exact .inr rfl
    | act stk =>
      obtain ⟨s', h3⟩ := stopper_step (hq hctl) hst
      exact absurd h3 (hint s')
  · cases hc : s.ctl <;> simp [hc, quiet] at hctl ⊢

/-! ## What fails, and examples -/

/-- The `co_await` on a sender followed by `co_return`. -/
def one : Body := .aw false fun o =>
  match o with
  | .value v => .fin (.value (v + 1))
  | o => .fin o

/-- **C54, what fails without `Ok`.** A task whose stop token differs from the awaiting environment's, awaiting a
sender that completes inside its stop callback: the coroutine frame, and in it the stop source, is destroyed
while `request_stop` of that source is still running on the stack, and `request_stop` then uses it. -/
theorem stop_source_destroyed_in_use :
    ∃ s, Reach (init ⟨true, none, true⟩ one 0 true) step s ∧ s.bad = true ∧ s.ctl = .fin .stopped := by
  obtain ⟨s, h, hp⟩ := Reach.witness (init := init ⟨true, none, true⟩ one 0 true) (step := step)
    [.exec, .exec, .stop, .enter 0, .leaf .stopped 0 true, .exec, .exec, .ret]
    (fun s : St => s.bad && decide (s.ctl = .fin .stopped)) (by rfl)
  simp at hp
  exact ⟨s, h, hp.1, hp.2⟩

/-- **C54, what fails without `Derived`.** A task whose start scheduler is default-constructed hands the awaiting
task back on its own context: the awaiting task, started on context 0, goes on on context 7. -/
theorem affinity_lost_after_default_scheduler :
    ∃ s, Reach (init ⟨false, none, false⟩ (.call ⟨false, some 7, false⟩ one fun o => .fin o) 0 false) step s ∧
      s.ctl = .run 0 ∧ (s.fr 0).sch = 0 ∧ s.ctx = 7 := by
  obtain ⟨s, h, hp⟩ := Reach.witness
    (init := init ⟨false, none, false⟩ (.call ⟨false, some 7, false⟩ one fun o => .fin o) 0 false) (step := step)
    [.exec, .exec, .exec, .exec, .leaf (.value 1) 3 false, .exec, .exec, .exec]
    (fun s : St => decide (s.ctl = .run 0) && decide ((s.fr 0).sch = 0) && decide (s.ctx = 7)) (by rfl)
  simp at hp
  exact ⟨s, h, hp.1.1, hp.1.2, hp.2⟩

/-- A task that awaits a task, handles its exception, and awaits a sender. -/
def two : Body := .call ⟨true, none, false⟩ one fun o =>
  match o with
  | .error e => .aw false fun _ => .fin (.value (e * 10))
  | o => .fin o

example : Ok ⟨true, none, false⟩ two false := .inl rfl
example : Derived ⟨true, none, false⟩ ∧ All Derived two := by
  refine ⟨⟨rfl, rfl⟩, ⟨rfl, rfl⟩, ?_, ?_⟩
  · intro o; cases o <;> trivial
  · intro o; cases o
    · trivial
    · intro o; trivial
    · trivial

/-- It completes with a value when the inner sender does … -/
example : ∃ s, Reach (init ⟨true, none, false⟩ two 0 false) step s ∧ s.ctl = .fin (.value 5) ∧ s.n = 2 := by
  obtain ⟨s, h, hp⟩ := Reach.witness (init := init ⟨true, none, false⟩ two 0 false) (step := step)
    [.exec, .exec, .exec, .exec, .leaf (.value 4) 3 false, .exec, .exec, .exec, .exec, .exec, .exec]
    (fun s : St => decide (s.ctl = .fin (.value 5)) && decide (s.n = 2)) (by rfl)
  simp at hp
  exact ⟨s, h, hp.1, hp.2⟩

/-- … goes on after an exception … -/
example : ∃ s, Reach (init ⟨true, none, false⟩ two 0 false) step s ∧ s.ctl = .fin (.value 40) := by
  obtain ⟨s, h, hp⟩ := Reach.witness (init := init ⟨true, none, false⟩ two 0 false) (step := step)
    [.exec, .exec, .exec, .exec, .leaf (.error 4) 3 false, .exec, .exec, .exec, .exec, .leaf (.value 1) 2 false,
      .exec, .exec, .exec]
    (fun s : St => decide (s.ctl = .fin (.value 40))) (by rfl)
  simp at hp
  exact ⟨s, h, hp⟩

/-- … also if registering the inner stop callback throws … -/
example : ∃ s, Reach (init ⟨true, none, false⟩ two 0 false) step s ∧ s.ctl = .fin (.value 70) ∧
    denRoot two s.log = some (.value 70, []) := by
  obtain ⟨s, h, hp⟩ := Reach.witness (init := init ⟨true, none, false⟩ two 0 false) (step := step)
    [.exec, .exec, .regThrows 7, .exec, .leaf (.value 1) 2 false, .exec, .exec, .exec]
    (fun s : St => decide (s.ctl = .fin (.value 70)) && decide (denRoot two s.log = some (.value 70, []))) (by rfl)
  simp at hp
  exact ⟨s, h, hp.1, hp.2⟩

/-- … and is stopped when the stop request, forwarded through both tasks, stops the sender.  Meanwhile the inner
task waits for the callback that runs on the stopping thread. -/
example : ∃ s, Reach (init ⟨true, none, false⟩ two 0 false) step s ∧ s.ctl = .cancel 1 ∧ step s .exec = none ∧
    s.stop = .act [1, 0] := by
  obtain ⟨s, h, hp⟩ := Reach.witness (init := init ⟨true, none, false⟩ two 0 false) (step := step)
    [.exec, .exec, .exec, .exec, .stop, .enter 0, .enter 1, .leaf .stopped 3 false]
    (fun s : St => decide (s.ctl = .cancel 1) && (step s .exec).isNone && decide (s.stop = .act [1, 0])) (by rfl)
  simp at hp
  exact ⟨s, h, hp.1.1, hp.1.2, hp.2⟩

example : ∃ s, Reach (init ⟨true, none, false⟩ two 0 false) step s ∧ s.ctl = .fin .stopped ∧ s.stop = .over ∧
    s.bad = false := by
  obtain ⟨s, h, hp⟩ := Reach.witness (init := init ⟨true, none, false⟩ two 0 false) (step := step)
    [.exec, .exec, .exec, .exec, .stop, .enter 0, .enter 1, .leaf .stopped 3 false, .ret, .exec, .exec, .ret, .exec,
      .exec, .ret]
    (fun s : St => decide (s.ctl = .fin .stopped) && decide (s.stop = .over) && !s.bad) (by rfl)
  simp at hp
  exact ⟨s, h, hp.1.1, hp.1.2, hp.2⟩

/-- A task started after the stop request sees it at once. -/
example : ∃ s, Reach (init ⟨true, none, false⟩ two 0 false) step s ∧ s.ctl = .run 1 ∧ s.stop = .over ∧
    reqOf s (s.fr 1).tok = true := by
  obtain ⟨s, h, hp⟩ := Reach.witness (init := init ⟨true, none, false⟩ two 0 false) (step := step)
    [.exec, .stop, .enter 0, .ret, .ret, .exec, .exec]
    (fun s : St => decide (s.ctl = .run 1) && decide (s.stop = .over) && reqOf s (s.fr 1).tok) (by rfl)
  simp at hp
  exact ⟨s, h, hp.1.1, hp.1.2, hp.2⟩

end Verif.Task
