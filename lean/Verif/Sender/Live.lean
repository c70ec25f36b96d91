import Verif.Sender.Safe2
/-!
# Every execution of a sender without `repeat_until` halts (part of C25; proof tool)
-/
namespace Verif.Sender

/-- One machine step, seen from the pending item. -/
theorem step_item {m m' : St} {it : Item} {a : Act} (hit : Holds m it) (ht : m.term = false)
    (hu : m.ub = false) (hs : step m a = some m') :
    m'.env = m.env ∧ ((m'.term = true ∨ m'.ub = true) ∨
    (∃ l it', T1 m.env it l it' ∧ Holds m' it' ∧ m'.term = false ∧ m'.ub = false ∧ m'.log = m.log ++ l) ∨
    (∃ c y, it = .inl (.compl c [] y) ∧ m'.tasks = [] ∧ m'.wait = [] ∧ m'.done = [(c, y)] ∧
      m'.log = m.log)) := by
  obtain ⟨hd, hit⟩ := hit
  unfold step at hs
  simp only [ht, hu, Bool.or_self, Bool.false_eq_true, ↓reduceIte] at hs
  cases a with
  | run i orc =>
      simp only at hs
      rcases it with t | p
      · obtain ⟨h1, h2⟩ := hit
        rw [h1] at hs
        cases i with
        | succ i => simp at hs
        | zero =>
          simp only [List.getElem?_cons_zero] at hs
          rcases t with ⟨sn, k, z⟩ | ⟨c, k, z⟩
          · simp only [Option.some.injEq] at hs
            rcases startS_sound (envOf m.env k) k z sn orc with ⟨w, l, t, hw, hst, hi⟩ | ⟨_, w, hw⟩
            · rw [hw] at hs; subst hs
              refine ⟨rfl, .inr (.inl ⟨l, t, .start hst, ⟨hd, ?_⟩, ht, hu, ?_⟩)⟩
              · rcases t with t | p
                · simp [St.after, h1, h2, hi.2.1, hi.2.2]
                · simp [St.after, h1, h2, hi.2.1, hi.2.2]
              · rcases t with t | p <;> simp [St.after, hi.1]
            · rw [hw] at hs; subst hs
              exact ⟨rfl, .inl (.inr rfl)⟩
          · rcases k with _ | ⟨f, k⟩
            · simp only [Option.some.injEq] at hs; subst hs
              exact ⟨rfl, .inr (.inr ⟨c, z, rfl, by simp, h2, by simp [hd], rfl⟩)⟩
            · simp only [Option.some.injEq] at hs
              rcases complF_sound k z c f orc with ⟨w, l, t, hw, hst, hi⟩ | ⟨_, w, hw⟩ | ⟨_, w, hw⟩
              · rw [hw] at hs; subst hs
                refine ⟨rfl, .inr (.inl ⟨l, .inl t, .compl hst, ⟨hd, ?_⟩, ht, hu, ?_⟩)⟩
                · simp [St.after, h1, h2, hi.2.1, hi.2.2]
                · simp [St.after, hi.1]
              · rw [hw] at hs; subst hs; exact ⟨rfl, .inl (.inl rfl)⟩
              · rw [hw] at hs; subst hs; exact ⟨rfl, .inl (.inr rfl)⟩
      · obtain ⟨h1, h2⟩ := hit
        rw [h1] at hs; simp at hs
  | leaf i c z =>
      simp only at hs
      rcases it with t | ⟨lf, k⟩
      · obtain ⟨h1, h2⟩ := hit
        rw [h2] at hs; simp at hs
      · obtain ⟨h1, h2⟩ := hit
        rw [h2] at hs
        cases i with
        | succ i => simp at hs
        | zero =>
          simp only [List.getElem?_cons_zero] at hs
          split at hs
          · rename_i hal
            simp only [Option.some.injEq] at hs; subst hs
            exact ⟨rfl, .inr (.inl ⟨_, _, .leaf hal, ⟨hd, by simp [h1], by simp⟩, rfl, rfl, rfl⟩)⟩
          · cases hs

/-- Every sequence of moves from the item is finite. -/
inductive Halts (root : Env) : Item → Prop
  | mk {a} : (∀ l b, T1 root a l b → Halts root b) → Halts root a

/-- No `repeat_until` / `repeat` anywhere (also not in senders returned by functions). -/
def NoLoop : S → Prop
  | .repU _ => False
  | .letc _ _ k s => NoLoop s ∧ ∀ vs, NoLoop (k vs)
  | .fin a b => NoLoop a ∧ NoLoop b
  | .seq a b => NoLoop a ∧ NoLoop b
  | .writeEnv _ _ s => NoLoop s
  | .upon _ _ s => NoLoop s
  | .contOn _ s => NoLoop s
  | .sao s => NoLoop s
  | .ivar s => NoLoop s
  | .mat s => NoLoop s
  | .demat s => NoLoop s
  | .repN _ s => NoLoop s
  | .bulk _ _ _ s => NoLoop s
  | .unless s => NoLoop s
  | _ => True

theorem halts_compl {root : Env} {c : Comp} {f : Frame} {k : List Frame} {x : Nat}
    (h : ∀ l t, CStep k x c f l t → Halts root (.inl t)) : Halts root (.inl (.compl c (f :: k) x)) := by
  refine .mk fun l b hb => ?_
  cases hb with
  | compl hb => exact h _ _ hb

theorem halts_start {root : Env} {s : S} {k : List Frame} {x : Nat}
    (h : ∀ l it, SStep (envOf root k) k x s l it → Halts root it) : Halts root (.inl (.start s k x)) := by
  refine .mk fun l b hb => ?_
  cases hb with
  | start hb => exact h _ _ hb

theorem halts_leaf {root : Env} {lf : Leaf} {k : List Frame} {x : Nat}
    (hk : ∀ c z, Halts root (.inl (.compl c k z))) : Halts root (.inl (.start (.leaf lf) k x)) := by
  refine halts_start fun l it h => ?_
  cases h
  refine .mk fun l b hb => ?_
  cases hb
  exact hk _ _

theorem halts : ∀ (s : S), NoLoop s → ∀ (root : Env) (k : List Frame) (x : Nat),
    (∀ c z, Halts root (.inl (.compl c k z))) → Halts root (.inl (.start s k x)) := by
  have hfwd : ∀ {root : Env} {k}, (∀ c z, Halts root (.inl (.compl c k z))) →
      ∀ c z, Halts root (.inl (.compl c (.fwd :: k) z)) := by
    intro root k hk c z
    refine halts_compl fun l t h => ?_
    cases h; exact hk _ _
  intro s
  induction s with
  | leaf lf => intro _ root k x hk; exact halts_leaf hk
  | just c => intro _ root k x hk; refine halts_start fun l it h => ?_; cases h; exact hk _ _
  | tramp => intro _ root k x hk; refine halts_start fun l it h => ?_; cases h <;> exact hk _ _
  | readEnv q => intro _ root k x hk; refine halts_start fun l it h => ?_; cases h; exact hk _ _
  | writeEnv q v s ih =>
      intro hn root k x hk; refine halts_start fun l it h => ?_; cases h
      refine ih hn _ _ _ fun c z => halts_compl fun l t h => ?_
      cases h; exact hk _ _
  | upon ch f s ih =>
      intro hn root k x hk; refine halts_start fun l it h => ?_; cases h
      refine ih hn _ _ _ fun c z => halts_compl fun l t h => ?_
      cases h <;> exact hk _ _
  | letc ch f kk s ihk ih =>
      intro hn root k x hk; refine halts_start fun l it h => ?_; cases h
      refine ih hn.1 _ _ _ fun c z => halts_compl fun l t h => ?_
      cases h with
      | letOk => exact ihk _ (hn.2 _) _ _ _ (hfwd hk)
      | _ => exact hk _ _
  | contOn lf s ih =>
      intro hn root k x hk; refine halts_start fun l it h => ?_; cases h
      refine ih hn _ _ _ fun c z => halts_compl fun l t h => ?_
      cases h with
      | contOk =>
          refine halts_leaf fun c z => halts_compl fun l t h => ?_
          cases h <;> exact hk _ _
      | _ => exact hk _ _
  | fin a b iha ihb =>
      intro hn root k x hk; refine halts_start fun l it h => ?_; cases h
      refine iha hn.1 _ _ _ fun c z => halts_compl fun l t h => ?_
      generalize sendsValue (sigs (envOf root k) b) = sv at h
      cases h with
      | finOk =>
          refine ihb hn.2 _ _ _ fun c z => halts_compl fun l t h => ?_
          cases h <;> exact hk _ _
      | _ => exact hk _ _
  | seq a b iha ihb =>
      intro hn root k x hk; refine halts_start fun l it h => ?_; cases h
      refine iha hn.1 _ _ _ fun c z => halts_compl fun l t h => ?_
      cases h with
      | seqOk => exact ihb hn.2 _ _ _ (hfwd hk)
      | _ => exact hk _ _
  | sao s ih =>
      intro hn root k x hk; refine halts_start fun l it h => ?_; cases h
      refine ih hn _ _ _ fun c z => halts_compl fun l t h => ?_
      cases h <;> exact hk _ _
  | ivar s ih =>
      intro hn root k x hk; refine halts_start fun l it h => ?_; cases h
      refine ih hn _ _ _ fun c z => halts_compl fun l t h => ?_
      cases h <;> exact hk _ _
  | mat s ih =>
      intro hn root k x hk; refine halts_start fun l it h => ?_; cases h
      refine ih hn _ _ _ fun c z => halts_compl fun l t h => ?_
      cases h <;> exact hk _ _
  | demat s ih =>
      intro hn root k x hk; refine halts_start fun l it h => ?_; cases h
      refine ih hn _ _ _ fun c z => halts_compl fun l t h => ?_
      cases h <;> exact hk _ _
  | repN n s ih =>
      intro hn root k x hk
      have hround : ∀ m x, Halts root (.inl (.start (.seq .tramp s) (.repN m s :: k) x)) := by
        have key : ∀ (K : List Frame), (∀ c z, Halts root (.inl (.compl c K z))) →
            ∀ x, Halts root (.inl (.start (.seq .tramp s) K x)) := by
          intro K hK x
          refine halts_start fun l it h => ?_; cases h
          refine halts_start fun l it h => ?_
          cases h
          · refine halts_compl fun l t h => ?_
            cases h with
            | seqOk => exact ih hn _ _ _ (hfwd hK)
            | _ => exact hK _ _
          · refine halts_compl fun l t h => ?_
            cases h with
            | seqOk => exact ih hn _ _ _ (hfwd hK)
            | _ => exact hK _ _
        intro m
        induction m with
        | zero =>
            intro x
            refine key _ (fun c z => halts_compl fun l t h => ?_) x
            cases h with
            | repNMore _ _ _ hm => exact absurd rfl hm
            | _ => exact hk _ _
        | succ m ihm =>
            intro x
            refine key _ (fun c z => halts_compl fun l t h => ?_) x
            cases h with
            | repNMore _ _ _ hm => exact ihm _
            | _ => exact hk _ _
      refine halts_start fun l it h => ?_
      cases h with
      | repN0 => exact hk _ _
      | repN => exact hround _ _
  | repU s ih => intro hn; exact hn.elim
  | bulk kd n f s ih =>
      intro hn root k x hk; refine halts_start fun l it h => ?_; cases h
      refine ih hn _ _ _ fun c z => halts_compl fun l t h => ?_
      cases h <;> exact hk _ _
  | «unless» s ih =>
      intro hn root k x hk; refine halts_start fun l it h => ?_
      cases h with
      | unlessStop => exact hk _ _
      | unlessGo => exact ih hn _ _ _ (hfwd hk)
      | unlessNo => exact ih hn _ _ _ hk

/-- The step relation backwards. -/
abbrev StepsTo (m' m : St) : Prop := ∃ a, step m a = some m'

theorem acc_stuck {m : St} (h : ∀ a, step m a = none) : Acc StepsTo m :=
  .intro _ fun m' ⟨a, ha⟩ => by rw [h a] at ha; cases ha

theorem acc_bad {m : St} (h : m.term = true ∨ m.ub = true) : Acc StepsTo m := by
  apply acc_stuck
  intro a
  unfold step
  rcases h with h | h <;> simp [h]

theorem acc_of_halts {e : Env} {it : Item} (h : Halts e it) :
    ∀ m : St, m.env = e → m.term = false → m.ub = false → Holds m it → Acc StepsTo m := by
  induction h with
  | @mk it _ ih =>
    intro m he ht hu hh
    refine .intro _ fun m' ⟨a, ha⟩ => ?_
    obtain ⟨he', h | ⟨l, it', h1, h2, h3, h4, _⟩ | ⟨c, y, _, h1, h2, _, _⟩⟩ := step_item hh ht hu ha
    · exact acc_bad h
    · exact ih l it' (he ▸ h1) m' (he'.trans he) h3 h4 h2
    · apply acc_stuck
      intro a
      unfold step
      split
      · rfl
      · cases a with
        | run i o => simp [h1]
        | leaf i c x => simp [h2]

theorem acc_init {s : S} (hn : NoLoop s) (e : Env) (x : Nat) : Acc StepsTo (init e s x) :=
  acc_of_halts (halts s hn e [] x fun c z => .mk fun l b h => by cases h) _ rfl rfl rfl ⟨rfl, rfl, rfl⟩

/-- An accessible state starts no infinite execution. -/
theorem no_infinite {m : St} (h : Acc StepsTo m) :
    ∀ (f : Nat → St), f 0 = m → (∀ n, ∃ a, step (f n) a = some (f (n + 1))) → False := by
  induction h with
  | intro m _ ih =>
    intro f h0 hf
    refine ih (f 1) ?_ (fun n => f (n + 1)) rfl (fun n => hf (n + 1))
    obtain ⟨a, ha⟩ := hf 0
    rw [h0] at ha
    exact ⟨a, ha⟩

end Verif.Sender
