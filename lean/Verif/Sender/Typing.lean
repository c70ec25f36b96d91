import Verif.Sender.Repeat
/-!
# Well-formed expressions: signatures are sound (C28), nothing ill-formed is executed
-/
namespace Verif.Sender

/-- What the library (at compile time) and the type of the user's functions require.

The conjuncts marked (!) are *not* checked by the library; without them the declared completion
signatures are wrong (see `finally_undeclared`, `repeat_until_undeclared`, `repeat_n_undeclared` in
`Props.lean`). -/
def WT (e : Env) : S → Prop
  | .leaf _ => True
  | .just _ => True
  | .tramp => True
  -- the query is answered by the receiver's environment
  | .readEnv q => (e q).isSome = true
  | .writeEnv q v s => WT (upd e q (some v)) s
  -- the function's results have its result type
  | .upon ch f s => WT e s ∧
      ∀ vs r, ⟨ch, tys vs⟩ ∈ sigs e s → f.run vs = .ok r → tys r = f.ret (tys vs)
  -- the function's result is a well-formed sender with the signatures its type declares
  | .letc ch f k s => WT e s ∧ ∀ vs, ⟨ch, tys vs⟩ ∈ sigs e s →
      WT e (k vs) ∧ sigs e (k vs) = f.sigs (tys vs) ∧ (k vs).connThrow = f.ct (tys vs)
  | .contOn _ s => WT e s
  -- (!) errors of the initial sender are nothrow copyable, unless the final sender has no value
  -- completion (then no copy guard is involved)
  | .fin a b => WT e a ∧ WT e b ∧
      (sendsValue (sigs e b) = true → ∀ g ∈ sigs e a, g.ch ≠ .value → ntTys g.ts = true)
  | .seq a b => WT e a ∧ WT e b
  -- exactly one value completion
  | .sao s => WT e s ∧ ∃ ts, valueTys (sigs e s) = [ts]
  | .ivar s => WT e s
  | .mat s => WT e s
  -- every value completion starts with a completion tag
  | .demat s => WT e s ∧ ∀ ts, ⟨.value, ts⟩ ∈ sigs e s → ∃ c rest, ts = .tag c :: rest
  -- no values; (!) if the count is 0 the child has a value completion
  | .repN n s => WT e s ∧ (∀ ts, ⟨.value, ts⟩ ∈ sigs e s → ts = []) ∧
      (n = 0 → sendsValue (sigs e s) = true)
  -- one boolean; (!) copying the child cannot throw unless connecting it is also declared to
  | .repU s => WT e s ∧ (∀ ts, ⟨.value, ts⟩ ∈ sigs e s → ts = [.bool] ∨ ∃ b, ts = [.bconst b]) ∧
      (s.cpt = true → s.connThrow = true)
  -- the function only modifies the values, not their types
  | .bulk _ _ f s => WT e s ∧ ∀ b n vs r, f.run b n vs = .ok r → tys r = tys vs
  | .unless s => WT e s

/-! ### list lemmas -/

theorem mem_onChan {ch : Chan} {f : List Ty → List Sig} {sg : List Sig} {g : Sig} :
    g ∈ onChan ch f sg ↔ (g.ch ≠ ch ∧ g ∈ sg) ∨ ∃ ts, ⟨ch, ts⟩ ∈ sg ∧ g ∈ f ts := by
  unfold onChan
  rw [List.mem_flatMap]
  constructor
  · rintro ⟨s, hs, h⟩
    split at h
    · rename_i hc; exact .inr ⟨s.ts, by rw [← hc]; exact hs, h⟩
    · rename_i hc
      rw [List.mem_singleton] at h; subst h; exact .inl ⟨hc, hs⟩
  · rintro (⟨hc, hs⟩ | ⟨ts, hs, h⟩)
    · exact ⟨g, hs, by simp [hc]⟩
    · exact ⟨_, hs, by simpa using h⟩

theorem mem_eptrUnless {b : Bool} {g : Sig} : g ∈ eptrUnless b ↔ b = false ∧ g = sigEptr := by
  unfold eptrUnless; cases b <;> simp

theorem mem_dropValues {sg : List Sig} {g : Sig} : g ∈ dropValues sg ↔ g.ch ≠ .value ∧ g ∈ sg := by
  unfold dropValues; rw [mem_onChan]; simp

theorem mem_decayArgs {ch : Chan} {sg : List Sig} {g : Sig} :
    g ∈ decayArgs ch sg ↔ g ∈ sg ∨ (∃ ts, ⟨ch, ts⟩ ∈ sg ∧ ntTys ts = false ∧ g = sigEptr) := by
  unfold decayArgs; rw [mem_onChan]
  simp only [List.mem_cons, mem_eptrUnless]
  constructor
  · rintro (⟨_, h⟩ | ⟨ts, h, rfl | ⟨h1, rfl⟩⟩)
    · exact .inl h
    · exact .inl h
    · exact .inr ⟨ts, h, h1, rfl⟩
  · rintro (h | ⟨ts, h, h1, rfl⟩)
    · by_cases hc : g.ch = ch
      · exact .inr ⟨g.ts, by rw [← hc]; exact h, .inl (by rw [← hc])⟩
      · exact .inl ⟨hc, h⟩
    · exact .inr ⟨ts, h, .inr ⟨h1, rfl⟩⟩

theorem sendsValue_iff {sg : List Sig} : sendsValue sg = true ↔ ∃ ts, ⟨.value, ts⟩ ∈ sg := by
  unfold sendsValue
  simp only [List.any_eq_true, decide_eq_true_eq]
  constructor
  · rintro ⟨s, hs, hc⟩; exact ⟨s.ts, by rw [← hc]; exact hs⟩
  · rintro ⟨ts, h⟩; exact ⟨_, h, rfl⟩

theorem mem_valueTys {sg : List Sig} {ts : List Ty} : ts ∈ valueTys sg ↔ ⟨.value, ts⟩ ∈ sg := by
  unfold valueTys
  simp only [List.mem_map, List.mem_filter, decide_eq_true_eq]
  constructor
  · rintro ⟨s, ⟨hs, hc⟩, rfl⟩; rw [← hc]; exact hs
  · intro h; exact ⟨_, ⟨h, rfl⟩, rfl⟩

theorem copyThrows_tys {vs : List Val} : CopyThrows vs ↔ ntTys (tys vs) = false := by
  rw [copyThrows_iff, ntArgs, ntTys, List.all_map]; rfl

theorem sigOf_cerror {ex : Nat} : sigOf (cerror ex) = sigEptr := rfl

theorem leaf_allows_sig {l : Leaf} {c : Comp} {y : Nat} (h : l.allows c y = true) : sigOf c ∈ l.sigs := by
  unfold Leaf.allows at h; simp only [Bool.and_eq_true, decide_eq_true_eq] at h; exact h.1

/-- Connect can only throw if its noexcept specification says so. -/
theorem connectThrows_conn {s : S} {ex : Nat} (h : ConnectThrows s ex) : s.connThrow = true :=
  dyn_conn s (connectThrows_iff.1 h)

theorem sig_eta {ch : Chan} {ts : List Ty} {g : Sig} (h1 : g.ch = ch) (h2 : g.ts = ts) : g = ⟨ch, ts⟩ := by
  cases g; simp_all

theorem bulkCalls_tys {f : BFn} (hf : ∀ b n vs r, f.run b n vs = .ok r → tys r = tys vs)
    {b n vs l r vs'} (h : BulkCalls f b n vs l r) (hr : r = .ok vs') : tys vs' = tys vs := by
  induction h generalizing vs' with
  | done => cases hr; rfl
  | next _ h1 _ ih => rw [ih hr, hf _ _ _ _ h1]
  | throw => cases hr

/-- **C28**: a completion an operation produces is declared. -/
theorem sound : ∀ (s : S) (e : Env) {x l c y}, WT e s → Runs e s x l c y → sigOf c ∈ sigs e s := by
  intro s
  induction s with
  | leaf lf => intro e x l c y _ hrun; exact leaf_allows_sig (leaf_runs.1 hrun).1
  | just c0 => intro e x l c y _ hrun; obtain ⟨rfl, _⟩ := just_runs.1 hrun; simp [sigs]
  | tramp =>
      intro e x l c y _ hrun
      obtain ⟨rfl | ⟨h, rfl⟩, _⟩ := tramp_runs.1 hrun
      · simp [sigs, trampSigs]
      · simp [sigs, trampSigs, h]
  | readEnv q =>
      intro e x l c y _ hrun
      obtain ⟨v, hv, rfl, _⟩ := readEnv_runs.1 hrun
      simp [sigs, hv]
  | writeEnv q v s ih =>
      intro e x l c y hw hrun
      exact ih _ hw (writeEnv_runs.1 hrun)
  | upon ch f s ih =>
      intro e x l c y ⟨hw, hf⟩ hrun
      simp only [sigs, List.mem_append, mem_onChan, List.mem_cons, mem_eptrUnless]
      rcases upon_runs.1 hrun with ⟨hc, h⟩ | ⟨l0, vs, h, ⟨r, hr, rfl, _⟩ | ⟨ex, hr, hn, rfl, _⟩⟩
      · exact .inl (.inl ⟨hc, ih e hw h⟩)
      · have := ih e hw h
        exact .inl (.inr ⟨tys vs, this, .inl (by rw [← hf vs r this hr])⟩)
      · exact .inl (.inr ⟨tys vs, ih e hw h, .inr ⟨hn, rfl⟩⟩)
  | letc ch f k s ihk ih =>
      intro e x l c y ⟨hw, hf⟩ hrun
      simp only [sigs, mem_onChan, List.mem_append, mem_eptrUnless]
      rcases letc_runs.1 hrun with ⟨hc, h⟩ | ⟨l0, vs, z, h, hh⟩
      · exact .inl ⟨hc, ih e hw h⟩
      · have hm := ih e hw h
        obtain ⟨h1, h2, h3⟩ := hf vs hm
        right
        refine ⟨tys vs, hm, ?_⟩
        rcases hh with ⟨_, l1, h4, _⟩ | ⟨ex, hn, rfl, _⟩ | ⟨ex, _, hn, rfl, _⟩ | ⟨ex, _, hn, rfl, _⟩
        · exact .inl (h2 ▸ ihk vs e h1 h4)
        · exact .inr ⟨by simp [copyThrows_tys.1 hn], rfl⟩
        · exact .inr ⟨by simp [hn], rfl⟩
        · exact .inr ⟨by simp [← h3, connectThrows_conn hn], rfl⟩
  | contOn lf s ih =>
      intro e x l c y hw hrun
      simp only [sigs, List.mem_append, mem_decayArgs, mem_dropValues, mem_eptrUnless]
      obtain ⟨l0, c0, z, h, ⟨d, hal, rfl, _⟩ | ⟨ex, hn, rfl, _⟩⟩ := contOn_runs.1 hrun
      · split
        · exact .inl (.inl (.inl (.inl (ih e hw h))))
        · rename_i hd; exact .inl (.inr ⟨hd, leaf_allows_sig hal⟩)
      · refine .inr ⟨?_, rfl⟩
        rw [List.all_eq_false]
        exact ⟨_, ih e hw h, by simpa using copyThrows_tys.1 hn⟩
  | fin a b iha ihb =>
      intro e x l c y ⟨hwa, hwb, hnt⟩ hrun
      obtain ⟨l0, c0, z, h, hh⟩ := fin_runs.1 hrun
      have hma := iha e hwa h
      simp only [sigs]
      split
      · rename_i hsv
        simp only [List.mem_append, mem_decayArgs, mem_dropValues]
        rcases hh with ⟨l1, d, h1, rfl, _⟩ | ⟨ex, hn, _, rfl, _⟩
        · split
          · exact .inl (.inl hma)
          · rename_i hd; exact .inr ⟨hd, ihb e hwb h1⟩
        · left; right
          rw [copyThrows_tys] at hn
          by_cases hc : c0.ch = .value
          · exact ⟨tys c0.args, by rw [comp_eta hc] at hma; exact hma, hn, rfl⟩
          · have := hnt hsv _ hma hc
            rw [this] at hn; cases hn
      · rename_i hsv
        simp only [List.mem_append, mem_dropValues]
        rcases hh with ⟨l1, d, h1, rfl, _⟩ | ⟨ex, hn, h2, rfl, _⟩
        · have hmb := ihb e hwb h1
          split
          · rename_i hd
            exfalso; apply hsv; rw [sendsValue_iff]
            exact ⟨tys d.args, by rw [comp_eta hd] at hmb; exact hmb⟩
          · exact .inr hmb
        · exact absurd h2 (by simpa using hsv)
  | seq a b iha ihb =>
      intro e x l c y ⟨hwa, hwb⟩ hrun
      simp only [sigs, seqSigs]
      rcases seq_runs.1 hrun with ⟨hc, h⟩ | ⟨l0, vs, z, h, hh⟩
      · have := iha e hwa h
        split
        · simp only [List.mem_append, mem_dropValues]; exact .inl (.inl ⟨hc, this⟩)
        · exact this
      · have hm := iha e hwa h
        rw [if_pos (sendsValue_iff.2 ⟨_, hm⟩)]
        simp only [List.mem_append, mem_eptrUnless]
        rcases hh with ⟨l1, h1, _⟩ | ⟨ex, hd, rfl, _⟩
        · exact .inl (.inr (ihb e hwb h1))
        · exact .inr ⟨by simp [connectThrows_conn hd], rfl⟩
  | sao s ih =>
      intro e x l c y ⟨hw, ts, hts⟩ hrun
      have hst : singleTy (sigs e s) = tupTy ts := by simp [singleTy, hts]
      have hm0 : ⟨.value, ts⟩ ∈ sigs e s := mem_valueTys.1 (by rw [hts]; simp)
      simp only [sigs, mem_onChan, List.mem_cons, mem_eptrUnless]
      rcases sao_runs.1 hrun with ⟨hc, h⟩ | ⟨vs, h, rfl⟩ | ⟨vs, h, rfl⟩ | ⟨l0, vs, ex, h, hn, rfl, _⟩
      · have := ih e hw h
        exact .inl ⟨by simp [hc], .inl ⟨by simp [hc], this⟩⟩
      · have hm := ih e hw h
        refine .inl ⟨by simp, .inr ⟨ts, hm0, .inl ?_⟩⟩
        simp [Val.ty, hst]
      · refine .inl ⟨by simp, .inr ⟨ts, hm0, .inl ?_⟩⟩
        simp [Val.ty, hst]
      · have hm := ih e hw h
        exact .inl ⟨by simp, .inr ⟨tys vs, hm, .inr ⟨copyThrows_tys.1 hn, rfl⟩⟩⟩
  | ivar s ih =>
      intro e x l c y hw hrun
      simp only [sigs, List.mem_append, mem_dropValues]
      rcases ivar_runs.1 hrun with ⟨hc, h⟩ | ⟨vs, h, rfl⟩ | ⟨l0, vs, ex, h, hn, rfl, _⟩
      · exact .inl ⟨hc, ih e hw h⟩
      · right; simp [Val.ty, varTy]
      · right; simp [Val.ty]
  | mat s ih =>
      intro e x l c y hw hrun
      obtain ⟨c0, h, rfl⟩ := mat_runs.1 hrun
      simp only [sigs, List.mem_map]
      exact ⟨sigOf c0, ih e hw h, by simp [Val.ty]⟩
  | demat s ih =>
      intro e x l c y ⟨hw, ht⟩ hrun
      simp only [sigs, mem_onChan]
      rcases demat_runs.1 hrun with ⟨hc, h⟩ | h
      · exact .inl ⟨hc, ih e hw h⟩
      · have := ih e hw h
        exact .inr ⟨_, this, by simp [Val.ty]⟩
  | repN n s ih =>
      intro e x l c y ⟨hw, hv, h0⟩ hrun
      have hseq : ∀ g, g ∈ seqSigs (trampSigs e) (sigs e s) s.connThrow ↔
          (stoppable e = true ∧ g = ⟨.stopped, []⟩) ∨ g ∈ sigs e s ∨ (s.connThrow = true ∧ g = sigEptr) := by
        intro g
        rw [seqSigs, if_pos (sendsValue_iff.2 ⟨[], by simp [trampSigs]⟩)]
        simp only [List.mem_append, mem_dropValues, mem_eptrUnless, trampSigs]
        cases stoppable e <;> simp <;> grind
      simp only [sigs, List.mem_append, mem_decayArgs, hseq, mem_eptrUnless]
      rcases repeatN_runs.1 hrun with ⟨hch, rfl⟩ | ⟨m, l0, z, l1, _, hch, hr, _⟩
      · left; left; right; left
        cases n with
        | zero =>
            obtain ⟨ts, hts⟩ := sendsValue_iff.1 (h0 rfl)
            have := hv ts hts; subst this; exact hts
        | succ n =>
            cases hch with
            | @cons _ _ _ vs _ _ _ h1 _ _ =>
                have h2 := ih e hw h1
                have := hv (tys vs) h2
                simp only [sigOf, this] at h2; exact h2
      · rcases hr with ⟨hc, h⟩ | ⟨l2, vs, ex, h, hn, rfl, _⟩ | ⟨h, rfl, _⟩ | ⟨ex, hd, rfl, _⟩ | ⟨_, hd, ex, rfl, _⟩
        · exact .inl (.inl (.inr (.inl (ih e hw h))))
        · exact .inl (.inr ⟨tys vs, .inr (.inl (ih e hw h)), copyThrows_tys.1 hn, rfl⟩)
        · exact .inl (.inl (.inl ⟨h, rfl⟩))
        · exact .inl (.inl (.inr (.inr ⟨connectThrows_conn hd, rfl⟩)))
        · exact .inr ⟨by simp [hd], rfl⟩
  | repU s ih =>
      intro e x l c y ⟨hw, hv, hcp⟩ hrun
      simp only [sigs, List.mem_append, mem_onChan, List.mem_cons, mem_eptrUnless, mem_dropValues]
      obtain ⟨m, l0, z, l1, hch, _, ⟨vs, h, hb, rfl⟩ | hr⟩ := repeatUntil_runs.1 hrun
      · have hm := ih e hw h
        left; left; left
        refine ⟨by simp, .inr ⟨tys vs, hm, ?_⟩⟩
        rcases hb with rfl | rfl <;> simp [Val.ty]
      · rcases hr with ⟨hc, h⟩ | ⟨l2, vs, ex, h, hn, rfl, _⟩ | ⟨h, rfl, _⟩ | ⟨ex, hd, rfl, _⟩ | ⟨_, hd, ex, rfl, _⟩
        · have hm := ih e hw h
          left; left
          by_cases hc' : c.ch = .error
          · right
            refine ⟨tys c.args, .inl ⟨by simp, ?_⟩, .inl (by simp [hc'])⟩
            rw [← hc']; exact hm
          · exact .inl ⟨hc', .inl ⟨hc, hm⟩⟩
        · have hm := ih e hw h
          left; left; right
          exact ⟨tys vs, .inl ⟨by simp, hm⟩, .inr ⟨copyThrows_tys.1 hn, rfl⟩⟩
        · right; exact ⟨by simp, by simp [trampSigs, h]⟩
        · left; right; exact ⟨by simp [connectThrows_conn hd], rfl⟩
        · left; right; exact ⟨by simp [hcp hd], rfl⟩
  | bulk kd n f s ih =>
      intro e x l c y ⟨hw, hf⟩ hrun
      simp only [sigs, mem_onChan, List.mem_cons, mem_eptrUnless]
      rcases bulk_runs.1 hrun with ⟨hc, h⟩ | ⟨l0, vs, h, ⟨lb, vs', hb, rfl, _⟩ | ⟨lb, ex, _, hn, rfl, _⟩⟩
      · exact .inl ⟨hc, ih e hw h⟩
      · refine .inr ⟨tys vs, ih e hw h, .inl ?_⟩
        have : tys vs' = tys vs := by
          cases kd
          · rcases hb with ⟨_, _, h1⟩ | ⟨_, _, h1⟩
            · injection h1 with h1; rw [h1]
            · exact hf _ _ _ _ h1.symm
          · exact bulkCalls_tys hf hb rfl
          · exact bulkCalls_tys hf hb rfl
        simp only [sigOf, this]
      · exact .inr ⟨tys vs, ih e hw h, .inr ⟨hn, rfl⟩⟩
  | «unless» s ih =>
      intro e x l c y hw hrun
      simp only [sigs, List.mem_append]
      rcases unless_runs.1 hrun with h | ⟨h, rfl, _⟩
      · exact .inl (ih e hw h)
      · right; simp [h]

end Verif.Sender
