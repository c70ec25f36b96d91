import Verif.Task.Steps5
namespace Verif.Task
set_option maxHeartbeats 4000000

theorem inv_init (c : Cfg) (b : Body) (x : Nat) (ins : Bool) : Inv b (init c b x ins) [0] := by
  constructor
  case sem =>
    intro r
    simp only [init, List.nil_append, List.tail_cons, sem, upd_same, fr0]
    cases r with
    | nil => rfl
    | cons e r =>
      cases e with
      | res o => rfl
      | reg e =>
        cases e with
        | some e => rfl
        | none =>
          simp only [denRoot, up]
          cases den b r <;> rfl
  all_goals simp [init, top, fr0, none0, noCb, upd, Link, tokOf, going]
  case fresh => intro i hi; have h0 : ¬ i = 0 := by omega
                simp [h0]
  case aws =>
    intro i hi
    split at hi
    · rename_i h0; exact h0
    · cases hi
  case child => intro p d hp; have h0 : p = 0 := hp.symm
                simp [h0]

theorem inv_exec {b0 : Body} {s s' : St} {l : List Nat} (h : Inv b0 s l) (hy : Hyp s)
    (hs : step s .exec = some s') : ∃ l', Inv b0 s' l' := by
  simp only [step] at hs
  split at hs
  · rename_i i hc
    cases hs
    exact ⟨l, inv_register h hc⟩
  · rename_i i hc
    cases hs
    have htop : top s.ctl = some i := by rw [hc]; rfl
    obtain ⟨t, rfl⟩ := h.top_cons htop
    have hlv := h.live i (by simp)
    have hfl := h.flags i (by simp) (fun _ => by rw [hc]; rfl)
    have hse := h.sem
    rw [hc] at hse
    simp only [sem, List.tail_cons] at hse
    have hu : ∀ (f : Fr) o r, up (upd s.fr i f) t o r = up s.fr t o r := by
      intro f
      refine up_congr ?_
      intro j hj; simp [upd, top_ne h hj]
    unfold runBody
    split
    · rename_i v hb
      refine ⟨i :: t, ?_⟩
      refine inv_own (x := s.ctx) (sm := s.same) (lg := s.log) h htop rfl ?_ rfl rfl rfl ?_ ?_ ?_ ?_ (by simp) ?_ h.same
      · simp [sameShape]
      · rw [hc]; simp [cancelling]
      · simp [h.bad, hlv.1]
      · rw [hc]; rfl
      · simp [going]
      · intro r
        rw [hse r, hb]
        simp only [sem, hu, upd_same, den, Option.bind_some]
        simp [recOf, hfl]
    · rename_i e hb
      refine ⟨i :: t, ?_⟩
      refine inv_own (x := s.ctx) (sm := s.same) (lg := s.log) h htop rfl ?_ rfl rfl rfl ?_ ?_ ?_ ?_ (by simp) ?_ h.same
      · simp [sameShape]
      · rw [hc]; simp [cancelling]
      · simp [h.bad, hlv.1, hlv.2.2.2]
      · rw [hc]; rfl
      · simp [going]
      · intro r
        rw [hse r, hb]
        simp only [sem, hu, upd_same, den, Option.bind_some]
        simp [recOf, hfl]
    · rename_i hb
      refine ⟨i :: t, ?_⟩
      refine inv_own (x := s.ctx) (sm := s.same) (lg := s.log) h htop rfl ?_ rfl rfl rfl ?_ ?_ ?_ ?_ (by simp) ?_ h.same
      · simp [sameShape]
      · rw [hc]; simp [cancelling]
      · simp [h.bad, hlv.1, hlv.2.2.2]
      · rw [hc]; rfl
      · simp [going]
      · intro r
        rw [hse r, hb]
        simp only [sem, hu, upd_same, den, Option.bind_some]
        simp [recOf]
    · rename_i a k hb
      refine ⟨i :: t, ?_⟩
      refine inv_own (x := s.ctx) (sm := false) (lg := s.log) h htop rfl ?_ rfl rfl rfl ?_ ?_ ?_ ?_ (by simp) ?_ (by simp)
      · simp [sameShape]
      · rw [hc]; simp [cancelling]
      · simp [h.bad, hlv.1]
      · rw [hc]; rfl
      · intro _; exact hfl
      · intro r
        rw [hse r, hb]
        simp only [sem, hu, upd_same]
    · rename_i c b k hb
      exact ⟨s.n :: i :: t, inv_call h hc hb⟩
  · rename_i i hc
    have htop : top s.ctl = some i := by rw [hc]; rfl
    obtain ⟨t, rfl⟩ := h.top_cons htop
    have hlv := h.live i (by simp)
    split at hs
    · rename_i hst
      cases hs
      refine ⟨i :: t, ?_⟩
      have := inv_own (x := s.ctx) (sm := s.same) (lg := s.log) (f := s.fr i) (c := .cancel i)
        (b := s.bad || !(s.fr i).alive) h htop rfl (by simp [sameShape]) rfl rfl rfl
        (by rw [hc]; simp [cancelling]) (by simp [h.bad, hlv.1]) (by rw [hc]; rfl) (by simp [going]) (by simp)
        (by
          intro r
          have := h.sem r
          rw [hc] at this
          simp only [sem, List.tail_cons] at this ⊢
          rw [this]
          have hr : recOf (s.fr i) = .stopped := by simp [recOf, hst]
          rw [hr]
          symm
          refine up_congr ?_ _ _
          intro j hj; simp [upd, top_ne h hj]) h.same
      have he : upd s.fr i (s.fr i) = s.fr := by
        funext j; simp only [upd]; split
        · rename_i he; rw [he]
        · rfl
      simp only [setFr, he] at this
      exact this
    · rename_i hst
      split at hs
      · cases hs
      · rename_i hb
        cases hs
        refine ⟨i :: t, inv_reset h hy htop (by simpa using hb) (.inr ⟨hc, ?_, rfl⟩)⟩
        simpa using hst
  · rename_i i hc
    have htop : top s.ctl = some i := by rw [hc]; rfl
    split at hs
    · cases hs
    · rename_i hb
      cases hs
      exact ⟨l, inv_reset h hy htop (by simpa using hb) (.inl ⟨hc, rfl⟩)⟩
  · rename_i i hc
    have htop : top s.ctl = some i := by rw [hc]; rfl
    obtain ⟨t, rfl⟩ := h.top_cons htop
    cases hs
    have hcb : (s.fr i).cb = false := by rw [cb_top h htop, hc]; simp [noCb]
    have hpar := Link_parent h.link
    cases t with
    | nil =>
      simp only [List.head?_nil] at hpar
      have he : canceled s i = continueParent (drop s i) i .stopped := by
        unfold canceled; split
        · rename_i p hp; rw [hpar] at hp; cases hp
        · rfl
      rw [he]
      exact ⟨[], inv_back_root h hc⟩
    | cons p t =>
      simp only [List.head?_cons] at hpar
      have he : canceled s i = { drop s i with ctl := .cancel p } := by
        unfold canceled; split
        · rename_i q hq; rw [hpar] at hq; cases hq; rfl
        · rename_i hq; rw [hpar] at hq; cases hq
      rw [he]
      exact ⟨p :: t, inv_cancel_up h hc⟩
  · rename_i i hc
    have htop : top s.ctl = some i := by rw [hc]; rfl
    obtain ⟨t, rfl⟩ := h.top_cons htop
    cases hs
    have hcb : (s.fr i).cb = false := by rw [cb_top h htop, hc]; simp [noCb]
    have hcn : (s.fr i).child = none := by
      cases hx : (s.fr i).child with
      | none => rfl
      | some d => have := (h.child i d htop hx).1; rw [hc] at this; cases this
    have hse := h.sem
    rw [hc] at hse
    simp only [sem, List.tail_cons] at hse
    have hrs := h.rst i hc
    obtain ⟨r1, r2, r3, r4, r5, r6, r7⟩ := drop_rest s i
    unfold awaitResume
    split
    · rename_i e he
      refine ⟨t, ?_⟩
      have := inv_back (o := .error e) (lg := s.log) h htop hcb hcn (by simp)
        (by intro r; rw [hse r]; simp [recOf, hrs, he])
      have hl : { continueParent (drop s i) i (.error e) with log := s.log } = continueParent (drop s i) i (.error e) := by
        unfold continueParent; split <;> simp [r7]
      rw [hl] at this; exact this
    · rename_i he
      refine ⟨t, ?_⟩
      have := inv_back (o := .value ((s.fr i).result.getD 0)) (lg := s.log) h htop hcb hcn (by simp)
        (by intro r; rw [hse r]; simp [recOf, hrs, he])
      have hl : { continueParent (drop s i) i (.value ((s.fr i).result.getD 0)) with log := s.log } =
          continueParent (drop s i) i (.value ((s.fr i).result.getD 0)) := by
        unfold continueParent; split <;> simp [r7]
      rw [hl] at this; exact this
  · cases hs

theorem inv_step {b0 : Body} {s s' : St} {l : List Nat} {a : Act} (h : Inv b0 s l) (hy : Hyp s)
    (hs : step s a = some s') : ∃ l', Inv b0 s' l' := by
  cases a with
  | exec => exact inv_exec h hy hs
  | regThrows e =>
    simp only [step] at hs
    split at hs
    case h_2 => cases hs
    rename_i i hc
    split at hs
    case isFalse => cases hs
    cases hs
    have htop : top s.ctl = some i := by rw [hc]; rfl
    obtain ⟨t, rfl⟩ := h.top_cons htop
    have hcb : (s.fr i).cb = false := by rw [cb_top h htop, hc]; simp [noCb]
    have hcn : (s.fr i).child = none := by
      cases hx : (s.fr i).child with
      | none => rfl
      | some d => have := (h.child i d htop hx).1; rw [hc] at this; cases this
    refine ⟨t, ?_⟩
    refine inv_back (o := .error e) (lg := s.log ++ [.reg (some e)]) h htop hcb hcn (by simp) ?_
    intro r
    have := h.sem (.reg (some e) :: r)
    rw [hc] at this
    simpa [sem] using this
  | leaf o x ins =>
    simp only [step] at hs
    split at hs
    case h_2 => cases hs
    rename_i i aff hc
    split at hs
    case isFalse => cases hs
    rename_i hg
    cases hs
    have htop : top s.ctl = some i := by rw [hc]; rfl
    obtain ⟨t, rfl⟩ := h.top_cons htop
    have hlv := h.live i (by simp)
    have hfl := h.flags i (by simp) (fun _ => by rw [hc]; rfl)
    have hu : ∀ (f : Fr) o r, up (upd s.fr i f) t o r = up s.fr t o r := by
      intro f
      refine up_congr ?_
      intro j hj; simp [upd, top_ne h hj]
    refine ⟨i :: t, ?_⟩
    refine inv_own h htop ?_ ?_ rfl rfl rfl ?_ ?_ ?_ ?_ ?_ ?_ ?_
    · split <;> rfl
    · simp [sameShape]
    · rw [hc]; simp [cancelling]
    · simp [h.bad, hlv.1]
    · rw [hc]; split <;> rfl
    · intro _; exact hfl
    · split <;> simp
    · intro r
      have h1 := h.sem (.res o :: r)
      rw [hc] at h1
      simp only [sem, List.tail_cons, den] at h1
      rw [List.append_assoc]
      simp only [List.cons_append, List.nil_append]
      rw [h1]
      by_cases ho : o = .stopped
      · simp only [ho, if_true, sem, hu]; rfl
      · simp only [if_neg ho, sem, hu, upd_same]
    · intro hi
      have := hg hi
      unfold inCallback at this
      split at this
      · simp at this; exact this.1
      · cases this
  | stop =>
    simp only [step] at hs
    split at hs
    case isFalse => cases hs
    rename_i hst
    cases hs
    exact ⟨l, inv_stop h hst⟩
  | enter i =>
    simp only [step] at hs
    split at hs
    case h_2 => cases hs
    rename_i stk hst
    split at hs
    case isFalse => cases hs
    rename_i hg
    cases hs
    exact ⟨l, inv_enter h hst hg.2.2.1 hg.2.2.2.2⟩
  | ret =>
    simp only [step] at hs
    split at hs
    case h_2 => cases hs
    rename_i stk hst
    split at hs
    case isFalse => cases hs
    rename_i hg
    cases hs
    exact ⟨l, inv_ret h hst hg.2⟩

/-! ## Hypotheses on the program are kept -/

/-- Every task in the program satisfies `P`. -/
structure AllInv (P : Cfg → Prop) (s : St) : Prop where
  cfg : ∀ i, i < s.n → P (s.fr i).cfg
  cfg0 : ∀ i, s.n ≤ i → (s.fr i).cfg = ⟨false, none, false⟩
  body : ∀ i, All P (s.fr i).body
  k : ∀ i o, All P ((s.fr i).k o)

theorem all_congr {P : Cfg → Prop} {s s' : St} (h : AllInv P s) (hn : s'.n = s.n)
    (hf : ∀ j, (s'.fr j).cfg = (s.fr j).cfg ∧ ((s'.fr j).body = (s.fr j).body ∨ All P (s'.fr j).body) ∧
      ((s'.fr j).k = (s.fr j).k ∨ ∀ o, All P ((s'.fr j).k o))) : AllInv P s' := by
  constructor
  · intro i hi; rw [(hf i).1]; exact h.cfg i (hn ▸ hi)
  · intro i hi; rw [(hf i).1]; exact h.cfg0 i (hn ▸ hi)
  · intro i; rcases (hf i).2.1 with hx | hx
    · rw [hx]; exact h.body i
    · exact hx
  · intro i; rcases (hf i).2.2 with hx | hx
    · rw [hx]; exact h.k i
    · exact hx

theorem all_set {P : Cfg → Prop} {s : St} (h : AllInv P s) (i : Nat) (f : Fr)
    {s' : St} (hn : s'.n = s.n) (hf : s'.fr = upd s.fr i f) (hc : f.cfg = (s.fr i).cfg)
    (hb : f.body = (s.fr i).body ∨ All P f.body) (hk : f.k = (s.fr i).k ∨ ∀ o, All P (f.k o)) :
    AllInv P s' := by
  refine all_congr h hn ?_
  intro j; rw [hf]; simp only [upd]; split
  · rename_i he; subst he; exact ⟨hc, hb, hk⟩
  · simp

theorem all_destroy {P : Cfg → Prop} {s : St} (h : AllInv P s) (i : Nat) : AllInv P (destroy s i) := by
  unfold destroy
  split
  · rename_i c _
    refine all_congr h rfl ?_
    intro j
    simp only [upd]
    split
    · rename_i he; subst he; simp
    · split
      · rename_i he; subst he; simp
      · simp
  · exact all_set h i _ rfl rfl rfl (.inl rfl) (.inl rfl)

theorem all_cont {P : Cfg → Prop} {s : St} (h : AllInv P s) (i : Nat) (o : Out) :
    AllInv P (continueParent s i o) := by
  unfold continueParent
  split
  · rename_i p _
    refine all_congr h rfl ?_
    intro j
    simp only [upd]
    split
    · rename_i he; subst he
      exact ⟨rfl, .inr (h.k _ _), .inl rfl⟩
    · split
      · rename_i he; subst he; simp
      · simp
  · exact all_set h i _ rfl rfl rfl (.inl rfl) (.inl rfl)

theorem all_ctl {P : Cfg → Prop} {s s' : St} (h : AllInv P s) (hn : s'.n = s.n) (hf : s'.fr = s.fr) :
    AllInv P s' := all_congr h hn (fun j => by rw [hf]; simp)

theorem all_step {P : Cfg → Prop} {s s' : St} {a : Act} (h : AllInv P s) (hs : step s a = some s') :
    AllInv P s' := by
  have hset : ∀ i, AllInv P (setFr s i { s.fr i with owns := false }) := fun i =>
    all_set h i _ rfl rfl rfl (.inl rfl) (.inl rfl)
  cases a with
  | exec =>
    simp only [step] at hs
    split at hs
    · rename_i i hc; cases hs
      unfold register; split
      · exact all_set h i _ rfl rfl rfl (.inl rfl) (.inl rfl)
      · exact all_ctl h rfl rfl
    · rename_i i hc; cases hs
      have hbody := h.body i
      unfold runBody; split
      · exact all_set h i _ rfl rfl rfl (.inl rfl) (.inl rfl)
      · exact all_set h i _ rfl rfl rfl (.inl rfl) (.inl rfl)
      · exact all_set h i _ rfl rfl rfl (.inl rfl) (.inl rfl)
      · rename_i a k hb
        rw [hb] at hbody
        exact all_set h i { s.fr i with k := k } rfl rfl rfl (.inl rfl) (.inr hbody)
      · rename_i c b k hb
        rw [hb] at hbody
        obtain ⟨hc1, hc2, hc3⟩ := hbody
        have key : ∀ j, j ≠ s.n → (newTask s i c b k).fr j =
            if j = i then { s.fr i with k := k, child := some s.n } else s.fr j := by
          intro j hj; simp [newTask, upd, hj]
        have key2 : (newTask s i c b k).fr s.n = fr0 c b (if c.own then some s.n else (s.fr i).tok) (some i) (c.sch.getD (s.fr i).sch) := by
          simp [newTask]
        constructor
        · intro j hj
          simp only at hj ⊢
          have hj' : j < s.n + 1 := hj
          by_cases he : j = s.n
          · rw [he, key2]; exact hc1
          · rw [key j he]; split
            · rename_i hx; subst hx; exact h.cfg j (by omega)
            · exact h.cfg j (by omega)
        · intro j hj
          have hj' : s.n + 1 ≤ j := hj
          simp only
          rw [key j (by omega)]; split
          · rename_i hx; subst hx; exact h.cfg0 j (by omega)
          · exact h.cfg0 j (by omega)
        · intro j
          simp only
          by_cases he : j = s.n
          · rw [he, key2]; exact hc2
          · rw [key j he]; split
            · rename_i hx; subst hx; exact h.body j
            · exact h.body j
        · intro j o
          simp only
          by_cases he : j = s.n
          · rw [he, key2]; trivial
          · rw [key j he]; split
            · exact hc3 o
            · exact h.k j o
    · rename_i i hc
      split at hs
      · cases hs; exact all_ctl h rfl rfl
      · split at hs
        · cases hs
        · cases hs; exact all_set h i _ rfl rfl rfl (.inl rfl) (.inl rfl)
    · rename_i i hc
      split at hs
      · cases hs
      · cases hs; exact all_set h i _ rfl rfl rfl (.inl rfl) (.inl rfl)
    · rename_i i hc; cases hs
      unfold canceled; split
      · exact all_ctl (all_destroy (hset i) i) rfl rfl
      · exact all_cont (all_destroy (hset i) i) i _
    · rename_i i hc; cases hs
      unfold awaitResume; split
      · exact all_cont (all_destroy (hset i) i) i _
      · exact all_cont (all_destroy (hset i) i) i _
    · cases hs
  | regThrows e =>
    simp only [step] at hs
    split at hs
    case h_2 => cases hs
    rename_i i hc
    split at hs
    case isFalse => cases hs
    cases hs
    exact all_ctl (all_cont (all_destroy (hset i) i) i _) rfl rfl
  | leaf o x ins =>
    simp only [step] at hs
    split at hs
    case h_2 => cases hs
    rename_i i aff hc
    split at hs
    case isFalse => cases hs
    cases hs
    exact all_set h i { s.fr i with body := (s.fr i).k o } rfl rfl rfl (.inr (h.k i o)) (.inl rfl)
  | stop =>
    simp only [step] at hs
    split at hs
    case isFalse => cases hs
    cases hs; exact all_ctl h rfl rfl
  | enter i =>
    simp only [step] at hs
    split at hs
    case h_2 => cases hs
    split at hs
    case isFalse => cases hs
    cases hs; exact all_set h i _ rfl rfl rfl (.inl rfl) (.inl rfl)
  | ret =>
    simp only [step] at hs
    split at hs
    case h_2 => cases hs
    split at hs
    case isFalse => cases hs
    cases hs; exact all_ctl h rfl rfl

theorem all_init {P : Cfg → Prop} {c : Cfg} {b : Body} (hc : P c) (hb : All P b) (x : Nat) (ins : Bool) :
    AllInv P (init c b x ins) := by
  constructor
  · intro i hi
    have : i = 0 := by simp [init] at hi; exact hi
    subst this; simpa [init, fr0] using hc
  · intro i hi
    have : ¬ i = 0 := by simp [init] at hi; omega
    simp [init, upd, this, none0, fr0]
  · intro i
    simp only [init, upd]; split
    · exact hb
    · trivial
  · intro i o
    simp only [init, upd]; split <;> trivial

theorem ins_step {s s' : St} {a : Act} (hs : step s a = some s') : s'.inlineStop = s.inlineStop := by
  have hd : ∀ (s : St) i, (destroy s i).inlineStop = s.inlineStop := by
    intro s i; unfold destroy; split <;> rfl
  have hcp : ∀ (s : St) i o, (continueParent s i o).inlineStop = s.inlineStop := by
    intro s i o; unfold continueParent; split <;> rfl
  cases a <;> simp only [step] at hs
  case exec =>
    split at hs
    · cases hs; unfold register; split <;> rfl
    · cases hs; unfold runBody; split <;> rfl
    · split at hs
      · cases hs; rfl
      · split at hs
        · cases hs
        · cases hs; rfl
    · split at hs
      · cases hs
      · cases hs; rfl
    · cases hs; unfold canceled; split
      · exact hd _ _
      · rw [hcp, hd]; rfl
    · cases hs; unfold awaitResume; split
      · rw [hcp, hd]; rfl
      · rw [hcp, hd]; rfl
    · cases hs
  all_goals
    repeat' split at hs
    all_goals first
      | (cases hs; done)
      | (cases hs; rfl)
      | (cases hs; exact (hcp _ _ _).trans (hd _ _))

/-- What the theorems assume of a program: no sender resumes the coroutine inside its stop callback, or no
task translates stop tokens. -/
def Ok (c : Cfg) (b : Body) (ins : Bool) : Prop :=
  ins = false ∨ (c.own = false ∧ All (fun c => c.own = false) b)

theorem inv_reach {c : Cfg} {b : Body} {x : Nat} {ins : Bool} (hok : Ok c b ins) {s : St}
    (h : Reach (init c b x ins) step s) : ∃ l, Inv b s l := by
  have key : (∃ l, Inv b s l) ∧ Hyp s := by
    rcases hok with hok | ⟨h1, h2⟩
    · refine Reach.inv (fun s => (∃ l, Inv b s l) ∧ s.inlineStop = false) ⟨⟨_, inv_init c b x ins⟩, hok⟩ ?_ s h
        |>.imp id .inl
      rintro s a s' ⟨⟨l, hi⟩, hx⟩ hs
      exact ⟨inv_step hi (.inl hx) hs, (ins_step hs).trans hx⟩
    · have hown : ∀ s, AllInv (fun c : Cfg => c.own = false) s → ∀ i, (s.fr i).cfg.own = false := by
        intro s ha i
        by_cases hi : i < s.n
        · exact ha.cfg i hi
        · rw [ha.cfg0 i (by omega)]
      have := Reach.inv (fun s => (∃ l, Inv b s l) ∧ AllInv (fun c => c.own = false) s)
        ⟨⟨_, inv_init c b x ins⟩, all_init h1 h2 x ins⟩ (by
          rintro s a s' ⟨⟨l, hi⟩, hx⟩ hs
          exact ⟨inv_step hi (.inr (hown s hx)) hs, all_step hx hs⟩) s h
      exact ⟨this.1, .inr (hown s this.2)⟩
  exact key.1

end Verif.Task
