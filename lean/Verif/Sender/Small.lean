import Verif.Sender.Model
/-!
# Relational view of the handlers (proof tool)

`CStep` / `SStep` list, rule by rule, the outcomes of one completion call / one `start()` call;
`complF_sound`, `complF_real`, `startS_sound`, `startS_real` show that they are exactly the normal
outcomes of the monadic code of `Model.lean`.
-/
namespace Verif.Sender
open M

/-- Connecting can actually throw (`repeat_n(s, 0)` does not connect). -/
def S.dynThrow : S → Bool
  | .leaf l => l.ct
  | .writeEnv _ _ s => s.dynThrow
  | .upon _ _ s => s.dynThrow
  | .letc _ _ _ s => s.dynThrow
  | .contOn l s => l.ct || s.dynThrow
  | .seq a _ => a.dynThrow
  | .sao s => s.dynThrow
  | .ivar s => s.dynThrow
  | .mat s => s.dynThrow
  | .demat s => s.dynThrow
  | .repN n s => n != 0 && s.cpt
  | .repU s => s.cpt
  | .bulk _ _ _ s => s.dynThrow
  | .unless s => s.dynThrow
  | _ => false

/-- Connecting can terminate: an exception inside a `finally`. -/
def S.termThrow : S → Bool
  | .writeEnv _ _ s => s.termThrow
  | .upon _ _ s => s.termThrow
  | .letc _ _ _ s => s.termThrow
  | .contOn _ s => s.termThrow
  | .fin a b => a.dynThrow || b.dynThrow || a.termThrow || b.termThrow
  | .seq a _ => a.termThrow
  | .sao s => s.termThrow
  | .ivar s => s.termThrow
  | .mat s => s.termThrow
  | .demat s => s.termThrow
  | .bulk _ _ _ s => s.termThrow
  | .unless s => s.termThrow
  | _ => false

theorem dyn_conn : ∀ s : S, s.dynThrow = true → s.connThrow = true := by
  intro s
  induction s <;> simp_all [S.dynThrow, S.connThrow]
  all_goals (intros; grind)

theorem mayThrow_cases (b : Bool) (w : W) :
    (∃ o, mayThrow b w = (.ok (), { w with orc := o })) ∨
    (b = true ∧ ∃ e o, mayThrow b w = (.thr e, { w with orc := o, log := w.log ++ [.threw e] })) := by
  unfold mayThrow
  cases b
  · left; exact ⟨w.orc, by simp⟩
  · rcases w with ⟨_ | ⟨_ | e, r⟩, l, t, wt⟩
    · left; exact ⟨[], by simp⟩
    · left; exact ⟨r, by simp⟩
    · right; exact ⟨rfl, e, r, by simp⟩

theorem connectM_cases : ∀ (s : S) (w : W),
    (∃ o, connectM s w = (.ok (), { w with orc := o })) ∨
    (s.dynThrow = true ∧ ∃ e o, connectM s w =
      (.thr e, { w with orc := o, log := w.log ++ [.threw e] })) ∨
    (s.termThrow = true ∧ ∃ w', connectM s w = (.term, w')) := by
  intro s
  induction s with
  | leaf l => intro w; simp only [connectM]; rcases mayThrow_cases l.ct w with h | ⟨h0, h⟩
              · exact .inl h
              · exact .inr (.inl ⟨h0, h⟩)
  | just c => intro w; exact .inl ⟨w.orc, rfl⟩
  | tramp => intro w; exact .inl ⟨w.orc, rfl⟩
  | readEnv q => intro w; exact .inl ⟨w.orc, rfl⟩
  | writeEnv q v s ih => intro w; simpa [connectM, S.dynThrow, S.termThrow] using ih w
  | upon ch f s ih => intro w; simpa [connectM, S.dynThrow, S.termThrow] using ih w
  | letc ch f k s _ ih => intro w; simpa [connectM, S.dynThrow, S.termThrow] using ih w
  | contOn l s ih =>
      intro w
      simp only [connectM, M.bind, S.dynThrow, S.termThrow]
      rcases mayThrow_cases l.ct w with ⟨o, h⟩ | ⟨h0, e, o, h⟩
      · rw [h]; simp only
        rcases ih { w with orc := o } with ⟨o', h'⟩ | ⟨h0, e, o', h'⟩ | ⟨h0, w', h'⟩
        · exact .inl ⟨o', by rw [h']⟩
        · exact .inr (.inl ⟨by simp [h0], e, o', by rw [h']⟩)
        · exact .inr (.inr ⟨h0, w', h'⟩)
      · exact .inr (.inl ⟨by simp [h0], e, o, by rw [h]⟩)
  | fin a b iha ihb =>
      intro w
      simp only [connectM, M.bind, noexc, S.dynThrow, S.termThrow]
      rcases ihb w with ⟨o, h⟩ | ⟨h0, e, o, h⟩ | ⟨h0, w', h⟩
      · rw [h]; simp only
        rcases iha { w with orc := o } with ⟨o', h'⟩ | ⟨h0, e, o', h'⟩ | ⟨h0, w', h'⟩
        · exact .inl ⟨o', by rw [h']⟩
        · exact .inr (.inr ⟨by simp [h0], _, by rw [h']⟩)
        · exact .inr (.inr ⟨by simp [h0], w', by rw [h']⟩)
      · exact .inr (.inr ⟨by simp [h0], _, by rw [h]⟩)
      · exact .inr (.inr ⟨by simp [h0], _, by rw [h]⟩)
  | seq a b iha ihb => intro w; simpa [connectM, S.dynThrow, S.termThrow] using iha w
  | sao s ih => intro w; simpa [connectM, S.dynThrow, S.termThrow] using ih w
  | ivar s ih => intro w; simpa [connectM, S.dynThrow, S.termThrow] using ih w
  | mat s ih => intro w; simpa [connectM, S.dynThrow, S.termThrow] using ih w
  | demat s ih => intro w; simpa [connectM, S.dynThrow, S.termThrow] using ih w
  | repN n s ih =>
      intro w; simp only [connectM, S.dynThrow]
      split
      · exact .inl ⟨w.orc, rfl⟩
      · rcases mayThrow_cases s.cpt w with h | ⟨h0, h⟩
        · exact .inl h
        · exact .inr (.inl ⟨by simp [*], h⟩)
  | repU s ih =>
      intro w; simp only [connectM]; rcases mayThrow_cases s.cpt w with h | ⟨h0, h⟩
      · exact .inl h
      · exact .inr (.inl ⟨h0, h⟩)
  | bulk kd n f s ih => intro w; simpa [connectM, S.dynThrow, S.termThrow] using ih w
  | «unless» s ih => intro w; simpa [connectM, S.dynThrow, S.termThrow] using ih w

theorem mayThrow_nil (b : Bool) (w : W) (h : w.orc = []) : mayThrow b w = (.ok (), w) := by
  unfold mayThrow; cases b <;> simp [h]

/-- With a silent oracle connecting succeeds. -/
theorem connectM_nil : ∀ (s : S) (w : W), w.orc = [] → connectM s w = (.ok (), w) := by
  intro s
  induction s with
  | leaf l => intro w h; exact mayThrow_nil _ w h
  | just c => intro w h; rfl
  | tramp => intro w h; rfl
  | readEnv q => intro w h; rfl
  | contOn l s ih => intro w h; simp [connectM, M.bind, mayThrow_nil _ w h, ih w h]
  | fin a b iha ihb => intro w h; simp [connectM, M.bind, noexc, iha w h, ihb w h]
  | repN n s ih => intro w h; simp only [connectM]; split
                   · rfl
                   · exact mayThrow_nil _ w h
  | repU s ih => intro w h; exact mayThrow_nil _ w h
  | _ => intro w h; simp_all [connectM]

/-- If connecting can throw, some oracle makes it throw any given exception. -/
theorem connectM_throws : ∀ (s : S) (e : Nat), s.dynThrow = true → ∃ o, ∀ w : W, w.orc = o →
    connectM s w = (.thr e, { w with orc := [], log := w.log ++ [.threw e] }) := by
  intro s
  induction s with
  | leaf l => intro e h; refine ⟨[some e], fun w hw => ?_⟩
              simp only [S.dynThrow] at h; simp [connectM, mayThrow, h, hw]
  | just c => intro e h; simp [S.dynThrow] at h
  | tramp => intro e h; simp [S.dynThrow] at h
  | readEnv q => intro e h; simp [S.dynThrow] at h
  | fin a b iha ihb => intro e h; simp [S.dynThrow] at h
  | repN n s ih => intro e h; refine ⟨[some e], fun w hw => ?_⟩
                   simp only [S.dynThrow, Bool.and_eq_true, bne_iff_ne] at h
                   simp [connectM, mayThrow, h, hw]
  | repU s ih => intro e h; refine ⟨[some e], fun w hw => ?_⟩
                 simp only [S.dynThrow] at h; simp [connectM, mayThrow, h, hw]
  | contOn l s ih =>
      intro e h
      simp only [S.dynThrow, Bool.or_eq_true] at h
      cases hl : l.ct
      · simp only [hl, Bool.false_eq_true, false_or] at h
        obtain ⟨o, ho⟩ := ih e h
        refine ⟨o, fun w hw => ?_⟩
        simp [connectM, M.bind, mayThrow, hl, ho w hw]
      · refine ⟨[some e], fun w hw => ?_⟩
        simp [connectM, M.bind, mayThrow, hl, hw]
  | letc ch f k s _ ih => intro e h; simpa [connectM] using ih e h
  | seq a b iha ihb => intro e h; simpa [connectM] using iha e h
  | writeEnv q v s ih => intro e h; simpa [connectM] using ih e h
  | upon ch f s ih => intro e h; simpa [connectM] using ih e h
  | sao s ih => intro e h; simpa [connectM] using ih e h
  | ivar s ih => intro e h; simpa [connectM] using ih e h
  | mat s ih => intro e h; simpa [connectM] using ih e h
  | demat s ih => intro e h; simpa [connectM] using ih e h
  | bulk kd n f s ih => intro e h; simpa [connectM] using ih e h
  | «unless» s ih => intro e h; simpa [connectM] using ih e h

/-! ### bulk -/

/-- Observable result of the bulk loop: calls made, and values or exception. -/
def loopRes (f : BFn) (vs : List Val) (b : Nat) : Nat → List Ev × Except Nat (List Val)
  | 0 => ([], .ok vs)
  | n + 1 => match f.run b (b + 1) vs with
    | .error e => ([.callB f.id b (b + 1) vs], .error e)
    | .ok vs' => let r := loopRes f vs' (b + 1) n
                 (.callB f.id b (b + 1) vs :: r.1, r.2)

def bulkRes (kd : BKind) (n : Nat) (f : BFn) (vs : List Val) : List Ev × Except Nat (List Val) :=
  match kd with
  | .chunked => if n = 0 then ([], .ok vs) else ([.callB f.id 0 n vs], f.run 0 n vs)
  | _ => loopRes f vs 0 n

/-- How a result is rendered by the monadic code. -/
def renderB (f : BFn) (r : List Ev × Except Nat (List Val)) (w : W) : Out (List Val) × W :=
  match r with
  | (l, .ok vs) => (.ok vs, { w with log := w.log ++ l })
  | (l, .error e) => if f.noexc then (.term, { w with log := w.log ++ l })
      else (.thr e, { w with log := w.log ++ l ++ [.threw e] })

theorem callBFn_eq (f : BFn) (b e : Nat) (vs : List Val) (w : W) :
    callBFn f b e vs w = renderB f ([.callB f.id b e vs], f.run b e vs) w := by
  unfold callBFn M.bind emit renderB
  cases f.run b e vs with
  | ok r => simp [M.pure]
  | error ex => cases h : f.noexc <;> simp [terminate, raise]

theorem bulkLoop_eq (f : BFn) : ∀ (n : Nat) (vs : List Val) (b : Nat) (w : W),
    bulkLoop f vs b n w = renderB f (loopRes f vs b n) w := by
  intro n
  induction n with
  | zero => intro vs b w; simp [bulkLoop, loopRes, renderB, M.pure]
  | succ n ih =>
      intro vs b w
      simp only [bulkLoop, loopRes, M.bind, callBFn_eq]
      cases h : f.run b (b + 1) vs with
      | error e => simp only [renderB]; cases f.noexc <;> simp
      | ok vs' =>
          simp only [renderB]
          rw [ih]
          cases h2 : loopRes f vs' (b + 1) n with
          | mk l r => cases r <;> simp [renderB]

theorem bulkBody_eq (kd : BKind) (n : Nat) (f : BFn) (vs : List Val) (w : W) :
    bulkBody kd n f vs w = renderB f (bulkRes kd n f vs) w := by
  cases kd
  · simp only [bulkBody, bulkRes]
    by_cases h : n = 0
    · simp [h, renderB, M.pure]
    · rw [if_pos (by omega), if_neg h, callBFn_eq]
  · simp only [bulkBody, bulkRes, bulkLoop_eq]
  · simp only [bulkBody, bulkRes]
    by_cases h : n = 0
    · simp [h, renderB, M.pure, loopRes]
    · rw [if_pos (by omega), bulkLoop_eq]

/-! ### the relations -/

/-- One completion call on frame `f` with continuation `k`: events and next task. -/
inductive CStep (k : List Frame) (x : Nat) (c : Comp) : Frame → List Ev → Task → Prop
  | env q v : CStep k x c (.env q v) [] (.compl c k x)
  | uponPass ch f : c.ch ≠ ch → CStep k x c (.upon ch f) [] (.compl c k x)
  | uponOk ch f r : c.ch = ch → f.run c.args = .ok r →
      CStep k x c (.upon ch f) [.call f.id c.args] (.compl (cvalue r) k x)
  | uponThr ch f e : c.ch = ch → f.run c.args = .error e → f.noexc (tys c.args) = false →
      CStep k x c (.upon ch f) [.call f.id c.args, .threw e] (.compl (cerror e) k x)
  | letPass ch f kk : c.ch ≠ ch → CStep k x c (.letc ch f kk) [] (.compl c k x)
  | letCopy ch f kk e : c.ch = ch → ntArgs c.args = false →
      CStep k x c (.letc ch f kk) [.threw e] (.compl (cerror e) k x)
  | letCall ch f kk e : c.ch = ch → f.thr c.args = some e → f.noexc (tys c.args) = false →
      CStep k x c (.letc ch f kk) [.call f.id c.args, .threw e] (.compl (cerror e) k x)
  | letConn ch f kk e : c.ch = ch → f.thr c.args = none → (kk c.args).dynThrow = true →
      CStep k x c (.letc ch f kk) [.call f.id c.args, .threw e] (.compl (cerror e) k x)
  | letOk ch f kk : c.ch = ch → f.thr c.args = none →
      CStep k x c (.letc ch f kk) [.call f.id c.args] (.start (kk c.args) (.fwd :: k) x)
  | fwd : CStep k x c .fwd [] (.compl c k x)
  | contThr l e : ntArgs c.args = false → CStep k x c (.cont l) [.threw e] (.compl (cerror e) k x)
  | contOk l : CStep k x c (.cont l) [] (.start (.leaf l) (.cont2 c :: k) x)
  | cont2V c0 : c.ch = .value → CStep k x c (.cont2 c0) [] (.compl c0 k x)
  | cont2E c0 : c.ch ≠ .value → CStep k x c (.cont2 c0) [] (.compl c k x)
  | finThr b e : ntArgs c.args = false →
      CStep k x c (.fin b true) [.threw e] (.compl (cerror e) k x)
  | finOk b sv : CStep k x c (.fin b sv) [] (.start b (.fin2 c :: k) x)
  | fin2V c0 : c.ch = .value → CStep k x c (.fin2 c0) [] (.compl c0 k x)
  | fin2E c0 : c.ch ≠ .value → CStep k x c (.fin2 c0) [] (.compl c k x)
  | seqPass b : c.ch ≠ .value → CStep k x c (.seq b) [] (.compl c k x)
  | seqThr b e : c.ch = .value → b.dynThrow = true →
      CStep k x c (.seq b) [.threw e] (.compl (cerror e) k x)
  | seqOk b : c.ch = .value → CStep k x c (.seq b) [] (.start b (.fwd :: k) x)
  | saoThr t e : c.ch = .value → ntArgs c.args = false →
      CStep k x c (.sao t) [.threw e] (.compl (cerror e) k x)
  | saoV t : c.ch = .value →
      CStep k x c (.sao t) [] (.compl (cvalue [.some t (tupVal c.args)]) k x)
  | saoE t : c.ch = .error → CStep k x c (.sao t) [] (.compl c k x)
  | saoS t : c.ch = .stopped → CStep k x c (.sao t) [] (.compl (cvalue [.null t]) k x)
  | ivarPass t : c.ch ≠ .value → CStep k x c (.ivar t) [] (.compl c k x)
  | ivarThr t e : c.ch = .value → ntArgs c.args = false →
      CStep k x c (.ivar t) [.threw e] (.compl (cerror e) k x)
  | ivarV t : c.ch = .value → CStep k x c (.ivar t) []
      (.compl (cvalue [match t with
            | .var a => .alt a (tupTy (tys c.args)) (tupVal c.args)
            | t => .alt t (tupTy (tys c.args)) (tupVal c.args)]) k x)
  | mat : CStep k x c .mat [] (.compl (cvalue (.tag c.ch :: c.args)) k x)
  | dematPass : c.ch ≠ .value → CStep k x c .demat [] (.compl c k x)
  | dematV ch rest : c.ch = .value → asTag c.args = some (ch, rest) →
      CStep k x c .demat [] (.compl ⟨ch, rest⟩ k x)
  | repNDone n s : c.ch = .value → n - 1 = 0 → CStep k x c (.repN n s) [] (.compl (cvalue []) k x)
  | repNThr n s e : c.ch = .value → n - 1 ≠ 0 → s.cpt = true →
      CStep k x c (.repN n s) [.threw e] (.compl (cerror e) k x)
  | repNMore n s : c.ch = .value → n - 1 ≠ 0 →
      CStep k x c (.repN n s) [] (.start (.seq .tramp s) (.repN (n - 1) s :: k) x)
  | repNErrThr n s e : c.ch = .error → ntArgs c.args = false →
      CStep k x c (.repN n s) [.threw e] (.compl (cerror e) k x)
  | repNErr n s : c.ch = .error → CStep k x c (.repN n s) [] (.compl c k x)
  | repNStop n s : c.ch = .stopped → CStep k x c (.repN n s) [] (.compl c k x)
  | repUDone s : c.ch = .value → asBool c.args = some true →
      CStep k x c (.repU s) [] (.compl (cvalue []) k x)
  | repUThr s e : c.ch = .value → asBool c.args = some false →
      s.cpt = true → CStep k x c (.repU s) [.threw e] (.compl (cerror e) k x)
  | repUMore s : c.ch = .value → asBool c.args = some false →
      CStep k x c (.repU s) [] (.start (.seq .tramp s) (.repU s :: k) x)
  | repUErrThr s e : c.ch = .error → ntArgs c.args = false →
      CStep k x c (.repU s) [.threw e] (.compl (cerror e) k x)
  | repUErr s : c.ch = .error → CStep k x c (.repU s) [] (.compl c k x)
  | repUStop s : c.ch = .stopped → CStep k x c (.repU s) [] (.compl c k x)
  | bulkPass kd n f : c.ch ≠ .value → CStep k x c (.bulk kd n f) [] (.compl c k x)
  | bulkOk kd n f l vs : c.ch = .value → bulkRes kd n f c.args = (l, .ok vs) →
      CStep k x c (.bulk kd n f) l (.compl (cvalue vs) k x)
  | bulkThr kd n f l e : c.ch = .value → bulkRes kd n f c.args = (l, .error e) →
      f.noexc = false → CStep k x c (.bulk kd n f) (l ++ [.threw e]) (.compl (cerror e) k x)

/-- One `start()` call: events, and the next task or the leaf now in flight. -/
inductive SStep (e : Env) (k : List Frame) (x : Nat) : S → List Ev → Task ⊕ (Leaf × List Frame) → Prop
  | leaf l : SStep e k x (.leaf l) [.start l.id x] (.inr (l, k))
  | just c : SStep e k x (.just c) [] (.inl (.compl c k x))
  | trampV : SStep e k x .tramp [] (.inl (.compl (cvalue []) k x))
  | trampS : stoppable e = true → SStep e k x .tramp [] (.inl (.compl cstopped k x))
  | readEnv q v : e q = some v → SStep e k x (.readEnv q) [] (.inl (.compl (cvalue [v]) k x))
  | writeEnv q v s : SStep e k x (.writeEnv q v s) [] (.inl (.start s (.env q v :: k) x))
  | upon ch f s : SStep e k x (.upon ch f s) [] (.inl (.start s (.upon ch f :: k) x))
  | letc ch f kk s : SStep e k x (.letc ch f kk s) [] (.inl (.start s (.letc ch f kk :: k) x))
  | contOn l s : SStep e k x (.contOn l s) [] (.inl (.start s (.cont l :: k) x))
  | fin a b : SStep e k x (.fin a b) []
      (.inl (.start a (.fin b (sendsValue (sigs e b)) :: k) x))
  | seq a b : SStep e k x (.seq a b) [] (.inl (.start a (.seq b :: k) x))
  | sao s : SStep e k x (.sao s) [] (.inl (.start s (.sao (singleTy (sigs e s)) :: k) x))
  | ivar s : SStep e k x (.ivar s) [] (.inl (.start s (.ivar (varTy (sigs e s)) :: k) x))
  | mat s : SStep e k x (.mat s) [] (.inl (.start s (.mat :: k) x))
  | demat s : SStep e k x (.demat s) [] (.inl (.start s (.demat :: k) x))
  | repN0 s : SStep e k x (.repN 0 s) [] (.inl (.compl (cvalue []) k x))
  | repN n s : n ≠ 0 → SStep e k x (.repN n s) []
      (.inl (.start (.seq .tramp s) (.repN n s :: k) x))
  | repU s : SStep e k x (.repU s) [] (.inl (.start (.seq .tramp s) (.repU s :: k) x))
  | bulk kd n f s : SStep e k x (.bulk kd n f s) [] (.inl (.start s (.bulk kd n f :: k) x))
  | unlessStop s : stoppable e = true → SStep e k x (.unless s) [] (.inl (.compl cstopped k x))
  | unlessGo s : stoppable e = true → SStep e k x (.unless s) [] (.inl (.start s (.fwd :: k) x))
  | unlessNo s : stoppable e = false → SStep e k x (.unless s) [] (.inl (.start s k x))

/-- Rendering of a next item as machine effects. -/
def item (w : W) (l : List Ev) : Task ⊕ (Leaf × List Frame) → Prop
  | .inl t => w.log = l ∧ w.tasks = [t] ∧ w.wait = []
  | .inr p => w.log = l ∧ w.tasks = [] ∧ w.wait = [p]

theorem copy_split (vs : List Val) (o : List (Option Nat)) :
    (∃ o', copyArgs vs { orc := o } = (.ok (), { orc := o' })) ∨
    (ntArgs vs = false ∧ ∃ e o', copyArgs vs { orc := o } = (.thr e, { orc := o', log := [.threw e] })) := by
  unfold copyArgs
  rcases mayThrow_cases (!ntArgs vs) { orc := o } with h | ⟨h, h'⟩
  · exact .inl h
  · exact .inr ⟨by simpa using h, h'⟩

/-- Why a completion call can terminate the program. -/
def TermCause (c : Comp) : Frame → Prop
  | .upon ch f => c.ch = ch ∧ f.noexc (tys c.args) = true ∧ ∃ e, f.run c.args = .error e
  | .letc ch f kk => c.ch = ch ∧ ((f.noexc (tys c.args) = true ∧ ∃ e, f.thr c.args = some e) ∨
      (f.thr c.args = none ∧ (kk c.args).termThrow = true))
  | .seq b => c.ch = .value ∧ b.termThrow = true
  | .bulk kd n f => c.ch = .value ∧ f.noexc = true ∧ ∃ l e, bulkRes kd n f c.args = (l, .error e)
  | _ => False

/-- Why a completion call can be ill-formed. -/
def UbCause (c : Comp) : Frame → Prop
  | .demat => c.ch = .value ∧ asTag c.args = none
  | .repU _ => c.ch = .value ∧ asBool c.args = none
  | _ => False

/-- Every outcome of a completion call: a `CStep`, `std::terminate`, or ill-formed. In particular no
exception escapes and no completion is dropped or duplicated. -/
theorem complF_sound (k : List Frame) (x : Nat) (c : Comp) (f : Frame) (o : List (Option Nat)) :
    (∃ w l t, complF k x c f { orc := o } = (.ok (), w) ∧ CStep k x c f l t ∧ item w l (.inl t)) ∨
    (TermCause c f ∧ ∃ w, complF k x c f { orc := o } = (.term, w)) ∨
    (UbCause c f ∧ ∃ w, complF k x c f { orc := o } = (.ub, w)) := by
  have hcp := copy_split c.args o
  cases f with
  | env q v => exact .inl ⟨_, _, _, rfl, .env q v, rfl, rfl, rfl⟩
  | fwd => exact .inl ⟨_, _, _, rfl, .fwd, rfl, rfl, rfl⟩
  | mat => exact .inl ⟨_, _, _, rfl, .mat, rfl, rfl, rfl⟩
  | upon ch f =>
      simp only [complF]
      split
      · rename_i hc
        simp only [guarded, M.tryCatch, callFn, M.bind, emit]
        cases hr : f.run c.args with
        | ok r => exact .inl ⟨_, _, _, rfl, .uponOk ch f r hc hr, rfl, rfl, rfl⟩
        | error e =>
            cases hn : f.noexc (tys c.args)
            · simp only [raise, Bool.false_eq_true, ↓reduceIte]
              exact .inl ⟨_, _, _, rfl, .uponThr ch f e hc hr hn, rfl, rfl, rfl⟩
            · exact .inr (.inl ⟨⟨hc, hn, e, hr⟩, _, rfl⟩)
      · rename_i hc; exact .inl ⟨_, _, _, rfl, .uponPass ch f hc, rfl, rfl, rfl⟩
  | letc ch f kk =>
      simp only [complF]
      split
      · rename_i hc
        simp only [guarded, M.tryCatch, M.bind]
        rcases hcp with ⟨o', h⟩ | ⟨hnt, e, o', h⟩
        · rw [h]
          simp only [callLFn, M.bind, emit]
          cases hr : f.thr c.args with
          | none =>
              simp only [M.pure]
              rcases connectM_cases (kk c.args)
                { orc := o', log := [.call f.id c.args] } with ⟨o2, h2⟩ | ⟨hd, e, o2, h2⟩ | ⟨_, w', h2⟩
              · simp only [List.nil_append, h2]
                exact .inl ⟨_, _, _, rfl, .letOk ch f kk hc hr, rfl, rfl, rfl⟩
              · simp only [List.nil_append, h2, dyn_conn _ hd, Bool.not_true, Bool.and_false,
                  Bool.false_eq_true, ↓reduceIte]
                exact .inl ⟨_, _, _, rfl, .letConn ch f kk e hc hr hd, rfl, rfl, rfl⟩
              · simp only [List.nil_append, h2]; exact .inr (.inl ⟨⟨hc, .inr ⟨hr, ‹_›⟩⟩, _, rfl⟩)
          | some e =>
              cases hn : f.noexc (tys c.args)
              · simp only [raise, Bool.false_eq_true, ↓reduceIte, Bool.and_false, Bool.false_and]
                exact .inl ⟨_, _, _, rfl, .letCall ch f kk e hc hr hn, rfl, rfl, rfl⟩
              · exact .inr (.inl ⟨⟨hc, .inl ⟨hn, e, hr⟩⟩, _, rfl⟩)
        · rw [h]
          simp only [hnt, Bool.false_and, Bool.false_eq_true, ↓reduceIte]
          exact .inl ⟨_, _, _, rfl, .letCopy ch f kk e hc hnt, rfl, rfl, rfl⟩
      · rename_i hc; exact .inl ⟨_, _, _, rfl, .letPass ch f kk hc, rfl, rfl, rfl⟩
  | cont l =>
      simp only [complF, M.tryCatch, M.bind]
      rcases hcp with ⟨o', h⟩ | ⟨hnt, e, o', h⟩
      · rw [h]; exact .inl ⟨_, _, _, rfl, .contOk l, rfl, rfl, rfl⟩
      · rw [h]; exact .inl ⟨_, _, _, rfl, .contThr l e hnt, rfl, rfl, rfl⟩
  | cont2 c0 =>
      simp only [complF]
      split
      · rename_i hc; exact .inl ⟨_, _, _, rfl, .cont2V c0 hc, rfl, rfl, rfl⟩
      · rename_i hc; exact .inl ⟨_, _, _, rfl, .cont2E c0 hc, rfl, rfl, rfl⟩
  | fin b sv =>
      cases sv
      · exact .inl ⟨_, _, _, rfl, .finOk b false, rfl, rfl, rfl⟩
      · simp only [complF, guarded, M.tryCatch, M.bind, ↓reduceIte]
        rcases hcp with ⟨o', h⟩ | ⟨hnt, e, o', h⟩
        · rw [h]; exact .inl ⟨_, _, _, rfl, .finOk b true, rfl, rfl, rfl⟩
        · rw [h]; simp only [hnt, Bool.false_eq_true, ↓reduceIte]
          exact .inl ⟨_, _, _, rfl, .finThr b e hnt, rfl, rfl, rfl⟩
  | fin2 c0 =>
      simp only [complF]
      split
      · rename_i hc; exact .inl ⟨_, _, _, rfl, .fin2V c0 hc, rfl, rfl, rfl⟩
      · rename_i hc; exact .inl ⟨_, _, _, rfl, .fin2E c0 hc, rfl, rfl, rfl⟩
  | seq b =>
      simp only [complF]
      split
      · rename_i hc
        simp only [guarded, M.tryCatch, M.bind]
        rcases connectM_cases b { orc := o } with ⟨o2, h2⟩ | ⟨hd, e, o2, h2⟩ | ⟨_, w', h2⟩
        · rw [h2]; exact .inl ⟨_, _, _, rfl, .seqOk b hc, rfl, rfl, rfl⟩
        · rw [h2]
          simp only [dyn_conn _ hd, Bool.not_true, Bool.false_eq_true, ↓reduceIte]
          exact .inl ⟨_, _, _, rfl, .seqThr b e hc hd, rfl, rfl, rfl⟩
        · rw [h2]; exact .inr (.inl ⟨⟨hc, ‹_›⟩, _, rfl⟩)
      · rename_i hc; exact .inl ⟨_, _, _, rfl, .seqPass b hc, rfl, rfl, rfl⟩
  | sao t =>
      simp only [complF]
      rcases hc : c.ch with _ | _ | _
      · skip
        simp only [guarded, M.tryCatch, M.bind]
        rcases hcp with ⟨o', h⟩ | ⟨hnt, e, o', h⟩
        · rw [h]; exact .inl ⟨_, _, _, rfl, .saoV t hc, rfl, rfl, rfl⟩
        · rw [h]; simp only [hnt, Bool.false_eq_true, ↓reduceIte]
          exact .inl ⟨_, _, _, rfl, .saoThr t e hc hnt, rfl, rfl, rfl⟩
      · exact .inl ⟨_, _, _, rfl, .saoE t hc, rfl, rfl, rfl⟩
      · exact .inl ⟨_, _, _, rfl, .saoS t hc, rfl, rfl, rfl⟩
  | ivar t =>
      simp only [complF]
      split
      · rename_i hc
        simp only [M.tryCatch, M.bind]
        rcases hcp with ⟨o', h⟩ | ⟨hnt, e, o', h⟩
        · rw [h]; exact .inl ⟨_, _, _, rfl, .ivarV t hc, rfl, rfl, rfl⟩
        · rw [h]; exact .inl ⟨_, _, _, rfl, .ivarThr t e hc hnt, rfl, rfl, rfl⟩
      · rename_i hc; exact .inl ⟨_, _, _, rfl, .ivarPass t hc, rfl, rfl, rfl⟩
  | demat =>
      simp only [complF]
      split
      · rename_i hc
        cases ha : asTag c.args with
        | some p => exact .inl ⟨_, _, _, rfl, .dematV p.1 p.2 hc ha, rfl, rfl, rfl⟩
        | none => exact .inr (.inr ⟨⟨hc, ha⟩, _, rfl⟩)
      · rename_i hc; exact .inl ⟨_, _, _, rfl, .dematPass hc, rfl, rfl, rfl⟩
  | repN n s =>
      simp only [complF]
      rcases hc : c.ch with _ | _ | _
      · skip
        split
        · rename_i hn; exact .inl ⟨_, _, _, rfl, .repNDone n s hc hn, rfl, rfl, rfl⟩
        · rename_i hn
          simp only [guarded, M.tryCatch, M.bind]
          rcases mayThrow_cases s.cpt { orc := o } with ⟨o', h⟩ | ⟨hct, e, o', h⟩
          · rw [h]; exact .inl ⟨_, _, _, rfl, .repNMore n s hc hn, rfl, rfl, rfl⟩
          · rw [h]; simp only [hct, Bool.not_true, Bool.false_eq_true, ↓reduceIte]
            exact .inl ⟨_, _, _, rfl, .repNThr n s e hc hn hct, rfl, rfl, rfl⟩
      · skip
        simp only [guarded, M.tryCatch, M.bind]
        rcases hcp with ⟨o', h⟩ | ⟨hnt, e, o', h⟩
        · rw [h]; exact .inl ⟨_, _, _, rfl, .repNErr n s hc, rfl, rfl, rfl⟩
        · rw [h]; simp only [hnt, Bool.false_eq_true, ↓reduceIte]
          exact .inl ⟨_, _, _, rfl, .repNErrThr n s e hc hnt, rfl, rfl, rfl⟩
      · exact .inl ⟨_, _, _, rfl, .repNStop n s hc, rfl, rfl, rfl⟩
  | repU s =>
      simp only [complF]
      rcases hc : c.ch with _ | _ | _
      · skip
        rcases ha : asBool c.args with _ | _ | _
        · exact .inr (.inr ⟨⟨hc, ha⟩, _, rfl⟩)
        · simp only [guarded, M.tryCatch, M.bind]
          rcases mayThrow_cases s.cpt { orc := o } with ⟨o', h⟩ | ⟨hct, e, o', h⟩
          · rw [h]; exact .inl ⟨_, _, _, rfl, .repUMore s hc ha, rfl, rfl, rfl⟩
          · rw [h]; simp only [hct, Bool.not_true, Bool.false_eq_true, ↓reduceIte]
            exact .inl ⟨_, _, _, rfl, .repUThr s e hc ha hct, rfl, rfl, rfl⟩
        · exact .inl ⟨_, _, _, rfl, .repUDone s hc ha, rfl, rfl, rfl⟩
      · skip
        simp only [guarded, M.tryCatch, M.bind]
        rcases hcp with ⟨o', h⟩ | ⟨hnt, e, o', h⟩
        · rw [h]; exact .inl ⟨_, _, _, rfl, .repUErr s hc, rfl, rfl, rfl⟩
        · rw [h]; simp only [hnt, Bool.false_eq_true, ↓reduceIte]
          exact .inl ⟨_, _, _, rfl, .repUErrThr s e hc hnt, rfl, rfl, rfl⟩
      · exact .inl ⟨_, _, _, rfl, .repUStop s hc, rfl, rfl, rfl⟩
  | bulk kd n f =>
      simp only [complF]
      split
      · rename_i hc
        simp only [guarded, M.tryCatch, M.bind, bulkBody_eq]
        cases hb : bulkRes kd n f c.args with
        | mk l r =>
          cases r with
          | ok vs =>
              simp only [renderB]
              exact .inl ⟨_, _, _, rfl, .bulkOk kd n f l vs hc hb, rfl, rfl, rfl⟩
          | error e =>
              cases hn : f.noexc
              · simp only [renderB, hn, Bool.false_eq_true, ↓reduceIte]
                exact .inl ⟨_, _, _, rfl, .bulkThr kd n f l e hc hb hn, rfl, rfl, rfl⟩
              · simp only [renderB, hn, ↓reduceIte]
                exact .inr (.inl ⟨⟨hc, hn, l, e, hb⟩, _, rfl⟩)
      · rename_i hc; exact .inl ⟨_, _, _, rfl, .bulkPass kd n f hc, rfl, rfl, rfl⟩

theorem startS_sound (e : Env) (k : List Frame) (x : Nat) (s : S) (o : List (Option Nat)) :
    (∃ w l t, startS e k x s { orc := o } = (.ok (), w) ∧ SStep e k x s l t ∧ item w l t) ∨
    ((∃ q, s = .readEnv q ∧ e q = none) ∧ ∃ w, startS e k x s { orc := o } = (.ub, w)) := by
  cases s with
  | leaf l => exact .inl ⟨_, _, _, rfl, .leaf l, rfl, rfl, rfl⟩
  | just c => exact .inl ⟨_, _, _, rfl, .just c, rfl, rfl, rfl⟩
  | tramp =>
      simp only [startS]
      split
      · rename_i h
        rcases o with _ | ⟨_ | b, r⟩
        · exact .inl ⟨_, _, _, rfl, .trampV, rfl, rfl, rfl⟩
        · exact .inl ⟨_, _, _, rfl, .trampV, rfl, rfl, rfl⟩
        · exact .inl ⟨_, _, _, rfl, .trampS h, rfl, rfl, rfl⟩
      · exact .inl ⟨_, _, _, rfl, .trampV, rfl, rfl, rfl⟩
  | readEnv q =>
      simp only [startS]
      cases h : e q with
      | some v => exact .inl ⟨_, _, _, rfl, .readEnv q v h, rfl, rfl, rfl⟩
      | none => exact .inr ⟨⟨q, rfl, h⟩, _, rfl⟩
  | writeEnv q v s => exact .inl ⟨_, _, _, rfl, .writeEnv q v s, rfl, rfl, rfl⟩
  | upon ch f s => exact .inl ⟨_, _, _, rfl, .upon ch f s, rfl, rfl, rfl⟩
  | letc ch f kk s => exact .inl ⟨_, _, _, rfl, .letc ch f kk s, rfl, rfl, rfl⟩
  | contOn l s => exact .inl ⟨_, _, _, rfl, .contOn l s, rfl, rfl, rfl⟩
  | fin a b => exact .inl ⟨_, _, _, rfl, .fin a b, rfl, rfl, rfl⟩
  | seq a b => exact .inl ⟨_, _, _, rfl, .seq a b, rfl, rfl, rfl⟩
  | sao s => exact .inl ⟨_, _, _, rfl, .sao s, rfl, rfl, rfl⟩
  | ivar s => exact .inl ⟨_, _, _, rfl, .ivar s, rfl, rfl, rfl⟩
  | mat s => exact .inl ⟨_, _, _, rfl, .mat s, rfl, rfl, rfl⟩
  | demat s => exact .inl ⟨_, _, _, rfl, .demat s, rfl, rfl, rfl⟩
  | repN n s =>
      simp only [startS]
      split
      · rename_i h; subst h; exact .inl ⟨_, _, _, rfl, .repN0 s, rfl, rfl, rfl⟩
      · rename_i h; exact .inl ⟨_, _, _, rfl, .repN n s h, rfl, rfl, rfl⟩
  | repU s => exact .inl ⟨_, _, _, rfl, .repU s, rfl, rfl, rfl⟩
  | bulk kd n f s => exact .inl ⟨_, _, _, rfl, .bulk kd n f s, rfl, rfl, rfl⟩
  | «unless» s =>
      simp only [startS]
      split
      · rename_i h
        rcases o with _ | ⟨_ | b, r⟩
        · exact .inl ⟨_, _, _, rfl, .unlessGo s h, rfl, rfl, rfl⟩
        · exact .inl ⟨_, _, _, rfl, .unlessGo s h, rfl, rfl, rfl⟩
        · exact .inl ⟨_, _, _, rfl, .unlessStop s h, rfl, rfl, rfl⟩
      · rename_i h; exact .inl ⟨_, _, _, rfl, .unlessNo s (by simpa using h), rfl, rfl, rfl⟩

def Realizes (r : Out Unit × W) (l : List Ev) (t : Task ⊕ (Leaf × List Frame)) : Prop :=
  r.1 = .ok () ∧ item r.2 l t

/-- Every `CStep` is realised by some oracle. -/
theorem complF_real {k : List Frame} {x : Nat} {c : Comp} {f : Frame} {l : List Ev} {t : Task}
    (h : CStep k x c f l t) :
    ∃ o, Realizes (complF k x c f { orc := o }) l (.inl t) := by
  cases h with
  | env q v => exact ⟨[], rfl, rfl, rfl, rfl⟩
  | fwd => exact ⟨[], rfl, rfl, rfl, rfl⟩
  | mat => exact ⟨[], rfl, rfl, rfl, rfl⟩
  | uponPass ch f hc => refine ⟨[], ?_⟩; simp only [complF, hc, ↓reduceIte, deliver]; exact ⟨rfl, rfl, rfl, rfl⟩
  | uponOk ch f r hc hr =>
      refine ⟨[], ?_⟩; simp only [complF, hc, ↓reduceIte, guarded, M.tryCatch, callFn, M.bind, emit,
        hr, M.pure, deliver]; exact ⟨rfl, rfl, rfl, rfl⟩
  | uponThr ch f e hc hr hn =>
      refine ⟨[], ?_⟩; simp only [complF, hc, ↓reduceIte, guarded, M.tryCatch, callFn, M.bind, emit,
        hr, hn, raise, deliver, Bool.false_eq_true]; exact ⟨rfl, rfl, rfl, rfl⟩
  | letPass ch f kk hc => refine ⟨[], ?_⟩; simp only [complF, hc, ↓reduceIte, deliver]; exact ⟨rfl, rfl, rfl, rfl⟩
  | letCopy ch f kk e hc hnt =>
      refine ⟨[some e], ?_⟩; simp only [complF, hc, ↓reduceIte, guarded, M.tryCatch, M.bind, copyArgs,
        mayThrow, hnt, Bool.not_false, Bool.false_and, Bool.false_eq_true, deliver]; exact ⟨rfl, rfl, rfl, rfl⟩
  | letCall ch f kk e hc hr hn =>
      refine ⟨[], ?_⟩; simp only [complF, hc, ↓reduceIte, guarded, M.tryCatch, M.bind, copyArgs,
        mayThrow_nil _ ({ orc := [] } : W) rfl, callLFn, emit, hr, hn, raise,
        Bool.and_false, Bool.false_and, Bool.false_eq_true, deliver]; exact ⟨rfl, rfl, rfl, rfl⟩
  | letConn ch f kk e hc hr hd =>
      obtain ⟨o, ho⟩ := connectM_throws _ e hd
      cases hnt : ntArgs c.args
      · refine ⟨none :: o, ?_⟩; simp only [complF, hc, ↓reduceIte, guarded, M.tryCatch, M.bind,
          copyArgs, mayThrow, hnt, Bool.not_false, callLFn, emit, hr, M.pure,
          ho { orc := o, log := [] ++ [Ev.call f.id c.args] } rfl, dyn_conn _ hd, Bool.not_true,
          Bool.and_false, Bool.false_eq_true, deliver]; exact ⟨rfl, rfl, rfl, rfl⟩
      · refine ⟨o, ?_⟩; simp only [complF, hc, ↓reduceIte, guarded, M.tryCatch, M.bind,
          copyArgs, mayThrow, hnt, Bool.not_true, Bool.false_eq_true, callLFn, emit, hr, M.pure,
          ho { orc := o, log := [] ++ [Ev.call f.id c.args] } rfl, dyn_conn _ hd,
          Bool.and_false, deliver]; exact ⟨rfl, rfl, rfl, rfl⟩
  | letOk ch f kk hc hr =>
      refine ⟨[], ?_⟩; simp only [complF, hc, ↓reduceIte, guarded, M.tryCatch, M.bind, copyArgs,
        mayThrow_nil _ ({ orc := [] } : W) rfl, callLFn, emit, hr, M.pure,
        connectM_nil _ { orc := [], log := [] ++ [Ev.call f.id c.args] } rfl, startOp]; exact ⟨rfl, rfl, rfl, rfl⟩
  | contThr l e hnt =>
      refine ⟨[some e], ?_⟩; simp only [complF, ↓reduceIte, M.tryCatch, M.bind, copyArgs,
        mayThrow, hnt, Bool.not_false, deliver]; exact ⟨rfl, rfl, rfl, rfl⟩
  | contOk l =>
      refine ⟨[], ?_⟩; simp only [complF, M.tryCatch, M.bind, copyArgs,
        mayThrow_nil _ ({ orc := [] } : W) rfl, startOp]; exact ⟨rfl, rfl, rfl, rfl⟩
  | cont2V c0 hc => refine ⟨[], ?_⟩; simp only [complF, hc, ↓reduceIte, deliver]; exact ⟨rfl, rfl, rfl, rfl⟩
  | cont2E c0 hc => refine ⟨[], ?_⟩; simp only [complF, hc, ↓reduceIte, deliver]; exact ⟨rfl, rfl, rfl, rfl⟩
  | finThr b e hnt =>
      refine ⟨[some e], ?_⟩; simp only [complF, ↓reduceIte, guarded, M.tryCatch, M.bind, copyArgs,
        mayThrow, hnt, Bool.not_false, Bool.false_eq_true, deliver]; exact ⟨rfl, rfl, rfl, rfl⟩
  | finOk b sv =>
      cases sv
      · exact ⟨[], rfl, rfl, rfl, rfl⟩
      · refine ⟨[], ?_⟩; simp only [complF, ↓reduceIte, guarded, M.tryCatch, M.bind, copyArgs,
          mayThrow_nil _ ({ orc := [] } : W) rfl, startOp]; exact ⟨rfl, rfl, rfl, rfl⟩
  | fin2V c0 hc => refine ⟨[], ?_⟩; simp only [complF, hc, ↓reduceIte, deliver]; exact ⟨rfl, rfl, rfl, rfl⟩
  | fin2E c0 hc => refine ⟨[], ?_⟩; simp only [complF, hc, ↓reduceIte, deliver]; exact ⟨rfl, rfl, rfl, rfl⟩
  | seqPass b hc => refine ⟨[], ?_⟩; simp only [complF, hc, ↓reduceIte, deliver]; exact ⟨rfl, rfl, rfl, rfl⟩
  | seqThr b e hc hd =>
      obtain ⟨o, ho⟩ := connectM_throws _ e hd
      refine ⟨o, ?_⟩; simp only [complF, hc, ↓reduceIte, guarded, M.tryCatch, M.bind,
          ho ({ orc := o } : W) rfl, dyn_conn _ hd, Bool.not_true,
          Bool.false_eq_true, deliver]; exact ⟨rfl, rfl, rfl, rfl⟩
  | seqOk b hc =>
      refine ⟨[], ?_⟩; simp only [complF, hc, ↓reduceIte, guarded, M.tryCatch, M.bind,
          connectM_nil _ ({ orc := [] } : W) rfl, startOp]; exact ⟨rfl, rfl, rfl, rfl⟩
  | saoThr t e hc hnt =>
      refine ⟨[some e], ?_⟩; simp only [complF, hc, ↓reduceIte, guarded, M.tryCatch, M.bind, copyArgs,
        mayThrow, hnt, Bool.not_false, Bool.false_eq_true, deliver]; exact ⟨rfl, rfl, rfl, rfl⟩
  | saoV t hc =>
      refine ⟨[], ?_⟩; simp only [complF, hc, guarded, M.tryCatch, M.bind, copyArgs,
        mayThrow_nil _ ({ orc := [] } : W) rfl, deliver]; exact ⟨rfl, rfl, rfl, rfl⟩
  | saoE t hc => refine ⟨[], ?_⟩; simp only [complF, hc, deliver]; exact ⟨rfl, rfl, rfl, rfl⟩
  | saoS t hc => refine ⟨[], ?_⟩; simp only [complF, hc, deliver]; exact ⟨rfl, rfl, rfl, rfl⟩
  | ivarPass t hc => refine ⟨[], ?_⟩; simp only [complF, hc, ↓reduceIte, deliver]; exact ⟨rfl, rfl, rfl, rfl⟩
  | ivarThr t e hc hnt =>
      refine ⟨[some e], ?_⟩; simp only [complF, hc, ↓reduceIte, M.tryCatch, M.bind, copyArgs,
        mayThrow, hnt, Bool.not_false, deliver]; exact ⟨rfl, rfl, rfl, rfl⟩
  | ivarV t hc =>
      refine ⟨[], ?_⟩; simp only [complF, hc, ↓reduceIte, M.tryCatch, M.bind, copyArgs,
        mayThrow_nil _ ({ orc := [] } : W) rfl, deliver]; exact ⟨rfl, rfl, rfl, rfl⟩
  | dematPass hc => refine ⟨[], ?_⟩; simp only [complF, hc, ↓reduceIte, deliver]; exact ⟨rfl, rfl, rfl, rfl⟩
  | dematV ch rest hc ha =>
      refine ⟨[], ?_⟩; simp only [complF, hc, ha, ↓reduceIte, deliver]; exact ⟨rfl, rfl, rfl, rfl⟩
  | repNDone n s hc hn => refine ⟨[], ?_⟩; simp only [complF, hc, hn, ↓reduceIte, deliver]; exact ⟨rfl, rfl, rfl, rfl⟩
  | repNThr n s e hc hn hct =>
      refine ⟨[some e], ?_⟩; simp only [complF, hc, hn, ↓reduceIte, guarded, M.tryCatch, M.bind,
        mayThrow, hct, Bool.not_true, Bool.false_eq_true, deliver]; exact ⟨rfl, rfl, rfl, rfl⟩
  | repNMore n s hc hn =>
      refine ⟨[], ?_⟩; simp only [complF, hc, hn, ↓reduceIte, guarded, M.tryCatch, M.bind,
        mayThrow_nil _ ({ orc := [] } : W) rfl, startOp]; exact ⟨rfl, rfl, rfl, rfl⟩
  | repNErrThr n s e hc hnt =>
      refine ⟨[some e], ?_⟩; simp only [complF, hc, ↓reduceIte, guarded, M.tryCatch, M.bind, copyArgs,
        mayThrow, hnt, Bool.not_false, Bool.false_eq_true, deliver]; exact ⟨rfl, rfl, rfl, rfl⟩
  | repNErr n s hc =>
      refine ⟨[], ?_⟩; simp only [complF, hc, guarded, M.tryCatch, M.bind, copyArgs,
        mayThrow_nil _ ({ orc := [] } : W) rfl, deliver]; exact ⟨rfl, rfl, rfl, rfl⟩
  | repNStop n s hc => refine ⟨[], ?_⟩; simp only [complF, hc, deliver]; exact ⟨rfl, rfl, rfl, rfl⟩
  | repUDone s hc ha =>
      refine ⟨[], ?_⟩; simp only [complF, hc, ha, deliver]; exact ⟨rfl, rfl, rfl, rfl⟩
  | repUThr s e hc ha hct =>
      refine ⟨[some e], ?_⟩; simp only [complF, hc, ha, ↓reduceIte, guarded, M.tryCatch, M.bind,
        mayThrow, hct, Bool.not_true, Bool.false_eq_true, deliver]; exact ⟨rfl, rfl, rfl, rfl⟩
  | repUMore s hc ha =>
      refine ⟨[], ?_⟩; simp only [complF, hc, ha, guarded, M.tryCatch, M.bind,
        mayThrow_nil _ ({ orc := [] } : W) rfl, startOp]; exact ⟨rfl, rfl, rfl, rfl⟩
  | repUErrThr s e hc hnt =>
      refine ⟨[some e], ?_⟩; simp only [complF, hc, ↓reduceIte, guarded, M.tryCatch, M.bind, copyArgs,
        mayThrow, hnt, Bool.not_false, Bool.false_eq_true, deliver]; exact ⟨rfl, rfl, rfl, rfl⟩
  | repUErr s hc =>
      refine ⟨[], ?_⟩; simp only [complF, hc, guarded, M.tryCatch, M.bind, copyArgs,
        mayThrow_nil _ ({ orc := [] } : W) rfl, deliver]; exact ⟨rfl, rfl, rfl, rfl⟩
  | repUStop s hc => refine ⟨[], ?_⟩; simp only [complF, hc, deliver]; exact ⟨rfl, rfl, rfl, rfl⟩
  | bulkPass kd n f hc => refine ⟨[], ?_⟩; simp only [complF, hc, ↓reduceIte, deliver]; exact ⟨rfl, rfl, rfl, rfl⟩
  | bulkOk kd n f l vs hc hb =>
      refine ⟨[], ?_⟩; simp only [complF, hc, ↓reduceIte, guarded, M.tryCatch, M.bind, bulkBody_eq,
        hb, renderB, deliver]; exact ⟨rfl, by simp, rfl, rfl⟩
  | bulkThr kd n f l e hc hb hn =>
      refine ⟨[], ?_⟩; simp only [complF, hc, ↓reduceIte, guarded, M.tryCatch, M.bind, bulkBody_eq,
        hb, hn, renderB, deliver, Bool.false_eq_true]; exact ⟨rfl, by simp, rfl, rfl⟩

/-- Every `SStep` is realised by some oracle. -/
theorem startS_real {e : Env} {k : List Frame} {x : Nat} {s : S} {l : List Ev}
    {t : Task ⊕ (Leaf × List Frame)} (h : SStep e k x s l t) :
    ∃ o, Realizes (startS e k x s { orc := o }) l t := by
  cases h with
  | trampV =>
      cases hs : stoppable e
      · refine ⟨[], ?_⟩; simp only [startS, hs, Bool.false_eq_true, ↓reduceIte, deliver]; exact ⟨rfl, rfl, rfl, rfl⟩
      · refine ⟨[], ?_⟩; simp only [startS, hs, Bool.false_eq_true, ↓reduceIte, M.bind, M.flip, deliver]; exact ⟨rfl, rfl, rfl, rfl⟩
  | trampS hs =>
      refine ⟨[some 0], ?_⟩; simp only [startS, hs, ↓reduceIte, M.bind, M.flip, deliver]; exact ⟨rfl, rfl, rfl, rfl⟩
  | readEnv q v hq => refine ⟨[], ?_⟩; simp only [startS, hq, deliver]; exact ⟨rfl, rfl, rfl, rfl⟩
  | repN n s hn => refine ⟨[], ?_⟩; simp only [startS, hn, ↓reduceIte, startOp]; exact ⟨rfl, rfl, rfl, rfl⟩
  | unlessStop s hs =>
      refine ⟨[some 0], ?_⟩; simp only [startS, hs, ↓reduceIte, M.bind, M.flip, deliver]; exact ⟨rfl, rfl, rfl, rfl⟩
  | unlessGo s hs =>
      refine ⟨[], ?_⟩; simp only [startS, hs, ↓reduceIte, M.bind, M.flip, startOp, Bool.false_eq_true]; exact ⟨rfl, rfl, rfl, rfl⟩
  | unlessNo s hs =>
      refine ⟨[], ?_⟩; simp only [startS, hs, ↓reduceIte, startOp, Bool.false_eq_true]; exact ⟨rfl, rfl, rfl, rfl⟩
  | _ => exact ⟨[], rfl, rfl, rfl, rfl⟩

end Verif.Sender
