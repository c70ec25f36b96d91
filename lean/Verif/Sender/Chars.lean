import Verif.Sender.Runs
/-!
# What each sender expression can do: one characterisation per adaptor (C26, C27, C30–C33)

Every theorem speaks about `Runs e s x l c y`: in environment `e`, started on context `x`, sender `s`
can run with event log `l` and complete its receiver with `c` on context `y` (defined in `Runs.lean`
from the machine of `Model.lean`). All are equivalences: they say what can happen and that nothing
else can.
-/
namespace Verif.Sender

/-- Connecting the sender can throw `ex`. -/
def ConnectThrows (s : S) (ex : Nat) : Prop :=
  ∃ orc, ((connectM s { orc := orc }).1 = .thr ex)

theorem connectThrows_iff {s : S} {ex : Nat} : ConnectThrows s ex ↔ s.dynThrow = true := by
  constructor
  · rintro ⟨o, h⟩
    rcases connectM_cases s { orc := o } with ⟨o', h'⟩ | ⟨h', _⟩ | ⟨_, w, h'⟩
    · rw [h'] at h; cases h
    · exact h'
    · rw [h'] at h; cases h
  · intro h
    obtain ⟨o, ho⟩ := connectM_throws s ex h
    exact ⟨o, by rw [ho _ rfl]⟩

/-- Copying these arguments may throw. -/
abbrev CopyThrows (vs : List Val) : Prop := ∃ v ∈ vs, v.ty.nt = false

theorem copyThrows_iff {vs : List Val} : CopyThrows vs ↔ ntArgs vs = false := by
  unfold CopyThrows ntArgs
  induction vs with
  | nil => simp
  | cons v vs ih => simp only [List.mem_cons, List.all_cons, Bool.and_eq_false_iff, ← ih]; grind

theorem comp_eta {c : Comp} {ch : Chan} (h : c.ch = ch) : c = ⟨ch, c.args⟩ := by
  cases c; simp_all

/-! ### sources -/

/-- A leaf starts where it is started and completes with any completion it is allowed. -/
theorem leaf_runs {e : Env} {lf : Leaf} {x l c y} :
    Runs e (.leaf lf) x l c y ↔ lf.allows c y = true ∧ l = [.start lf.id x, .finish lf.id c y] := by
  constructor
  · intro h
    obtain ⟨l1, it, l2, hs, ht, rfl⟩ := (runs_iff.1 h).start_inv
    cases hs
    cases ht with
    | head h1 h2 =>
      cases h1 with
      | leaf hal => obtain ⟨rfl, rfl, rfl⟩ := h2.done; exact ⟨hal, rfl⟩
  · rintro ⟨h, rfl⟩
    exact SStep.run (l1 := [.start lf.id x]) (.leaf lf) (.one (.leaf h))

/-- `just*` completes inline with exactly its data. -/
theorem just_runs {e : Env} {c0 : Comp} {x l c y} :
    Runs e (.just c0) x l c y ↔ c = c0 ∧ y = x ∧ l = [] := by
  constructor
  · intro h
    obtain ⟨l1, it, l2, hs, ht, rfl⟩ := (runs_iff.1 h).start_inv
    cases hs
    obtain ⟨rfl, rfl, rfl⟩ := ht.done; exact ⟨rfl, rfl, rfl⟩
  · rintro ⟨rfl, rfl, rfl⟩; exact SStep.run (.just c) (.refl _)

theorem tramp_runs {e : Env} {x l c y} :
    Runs e .tramp x l c y ↔
      (c = cvalue [] ∨ (stoppable e = true ∧ c = cstopped)) ∧ y = x ∧ l = [] := by
  constructor
  · intro h
    obtain ⟨l1, it, l2, hs, ht, rfl⟩ := (runs_iff.1 h).start_inv
    cases hs with
    | trampV => obtain ⟨rfl, rfl, rfl⟩ := ht.done; exact ⟨.inl rfl, rfl, rfl⟩
    | trampS h0 => obtain ⟨rfl, rfl, rfl⟩ := ht.done; exact ⟨.inr ⟨h0, rfl⟩, rfl, rfl⟩
  · rintro ⟨rfl | ⟨h, rfl⟩, rfl, rfl⟩
    · exact SStep.run .trampV (.refl _)
    · exact SStep.run (.trampS h) (.refl _)

/-- `read_env(q)` sends the receiver environment's answer to `q`. -/
theorem readEnv_runs {e : Env} {q x l c y} :
    Runs e (.readEnv q) x l c y ↔ ∃ v, e q = some v ∧ c = cvalue [v] ∧ y = x ∧ l = [] := by
  constructor
  · intro h
    obtain ⟨l1, it, l2, hs, ht, rfl⟩ := (runs_iff.1 h).start_inv
    cases hs with
    | readEnv q v h0 => obtain ⟨rfl, rfl, rfl⟩ := ht.done; exact ⟨v, h0, rfl, rfl, rfl⟩
  · rintro ⟨v, h, rfl, rfl, rfl⟩; exact SStep.run (.readEnv q v h) (.refl _)

/-! ### adaptors: a child under a receiver -/

/-- Common part: `start` of an adaptor starts its child with one more receiver. -/
theorem adaptor_runs {e : Env} {s c : S} {f : Frame} {x : Nat}
    (h1 : ∀ l it, SStep e [] x s l it ↔ l = [] ∧ it = .inl (.start c [f] x)) {l d y} :
    Runs e s x l d y ↔ ∃ l1 c0 z l2, Runs (f.env' e) c x l1 c0 z ∧ FR e f c0 z l2 d y ∧ l = l1 ++ l2 := by
  rw [runs_iff]
  constructor
  · intro h
    obtain ⟨l1, it, l2, hs, ht, rfl⟩ := h.start_inv
    obtain ⟨rfl, rfl⟩ := (h1 _ _).1 hs
    exact under_iff.1 ht
  · intro h
    exact T1s.head (l := []) (.start (k := []) ((h1 [] _).2 ⟨rfl, rfl⟩)) (under_iff.2 h)

set_option hygiene false in
macro "adapt" : tactic => `(tactic|
  (rw [adaptor_runs (f := _) (c := _) (fun l it => ⟨fun h => by cases h; exact ⟨rfl, rfl⟩, fun h => by
    obtain ⟨rfl, rfl⟩ := h; constructor⟩)]))

/-- `write_env(s, {q ↦ v})` is `s` in the updated environment. -/
theorem writeEnv_runs {e : Env} {q v s x l c y} :
    Runs e (.writeEnv q v s) x l c y ↔ Runs (upd e q (some v)) s x l c y := by
  adapt
  constructor
  · rintro ⟨l1, c0, z, l2, h1, h2, rfl⟩
    obtain ⟨_, _, _, hc, ht, rfl⟩ := h2.inv
    cases hc
    obtain ⟨rfl, rfl, rfl⟩ := ht.done
    simpa [Frame.env'] using h1
  · intro h; exact ⟨l, c, y, [], h, FR.of' (.env q v), by simp⟩

/-- then / upon_error / upon_stopped: other channels pass through; on the adaptor's own channel the
function is called exactly once with the data, and the result (or what it threw) is delivered, on
the same context. -/
theorem upon_runs {e : Env} {ch : Chan} {f : Fn} {s : S} {x l c y} :
    Runs e (.upon ch f s) x l c y ↔
      (c.ch ≠ ch ∧ Runs e s x l c y) ∨
      (∃ l0 vs, Runs e s x l0 ⟨ch, vs⟩ y ∧
        ((∃ r, f.run vs = .ok r ∧ c = cvalue r ∧ l = l0 ++ [.call f.id vs]) ∨
         (∃ ex, f.run vs = .error ex ∧ f.noexc (tys vs) = false ∧ c = cerror ex ∧
            l = l0 ++ [.call f.id vs, .threw ex]))) := by
  adapt
  constructor
  · rintro ⟨l1, c0, z, l2, h1, h2, rfl⟩
    obtain ⟨_, _, _, hc, ht, rfl⟩ := h2.inv
    cases hc with
    | uponPass _ _ hc =>
        obtain ⟨rfl, rfl, rfl⟩ := ht.done; left; exact ⟨hc, by simpa [Frame.env'] using h1⟩
    | uponOk _ _ r hc hr =>
        obtain ⟨rfl, rfl, rfl⟩ := ht.done
        exact .inr (⟨l1, c0.args, comp_eta hc ▸ h1, .inl ⟨r, hr, rfl, by simp⟩⟩)
    | uponThr _ _ ex hc hr hn =>
        obtain ⟨rfl, rfl, rfl⟩ := ht.done
        exact .inr (⟨l1, c0.args, comp_eta hc ▸ h1, .inr ⟨ex, hr, hn, rfl, by simp⟩⟩)
  · rintro (⟨hc, h⟩ | ⟨l0, vs, h, ⟨r, hr, rfl, rfl⟩ | ⟨ex, hr, hn, rfl, rfl⟩⟩)
    · exact ⟨l, c, y, [], h, FR.of' (.uponPass _ _ hc), by simp⟩
    · exact ⟨l0, _, y, _, h, FR.of' (.uponOk _ _ r rfl hr), rfl⟩
    · exact ⟨l0, _, y, _, h, FR.of' (.uponThr _ _ ex rfl hr hn), rfl⟩

/-- let_value / let_error / let_stopped: other channels pass through; on the adaptor's own channel
the results are stored, the function is called once with them, and then the sender it returned runs
on that context, its completion being the completion. If storing, the function, or connecting
throws, the exception is delivered. -/
theorem letc_runs {e : Env} {ch : Chan} {f : LFn} {kk : List Val → S} {s : S} {x l c y} :
    Runs e (.letc ch f kk s) x l c y ↔
      (c.ch ≠ ch ∧ Runs e s x l c y) ∨
      (∃ l0 vs z, Runs e s x l0 ⟨ch, vs⟩ z ∧
        ((f.thr vs = none ∧ ∃ l1, Runs e (kk vs) z l1 c y ∧ l = l0 ++ .call f.id vs :: l1) ∨
         (∃ ex, CopyThrows vs ∧ c = cerror ex ∧ y = z ∧ l = l0 ++ [.threw ex]) ∨
         (∃ ex, f.thr vs = some ex ∧ f.noexc (tys vs) = false ∧ c = cerror ex ∧ y = z ∧
            l = l0 ++ [.call f.id vs, .threw ex]) ∨
         (∃ ex, f.thr vs = none ∧ ConnectThrows (kk vs) ex ∧ c = cerror ex ∧ y = z ∧
            l = l0 ++ [.call f.id vs, .threw ex]))) := by
  adapt
  constructor
  · rintro ⟨l1, c0, z, l2, h1, h2, rfl⟩
    obtain ⟨_, _, _, hc, ht, rfl⟩ := h2.inv
    cases hc with
    | letPass _ _ _ hc =>
        obtain ⟨rfl, rfl, rfl⟩ := ht.done; left; exact ⟨hc, by simpa [Frame.env'] using h1⟩
    | letOk _ _ _ hc hr =>
        obtain ⟨l3, c3, z3, l4, h3, h4, rfl⟩ := under_iff.1 ht
        obtain ⟨_, _, _, hc', ht', rfl⟩ := h4.inv
        cases hc'
        obtain ⟨rfl, rfl, rfl⟩ := ht'.done
        exact .inr ⟨l1, c0.args, z, comp_eta hc ▸ h1, .inl ⟨hr, l3, h3, by simp⟩⟩
    | letCopy _ _ _ ex hc hn =>
        obtain ⟨rfl, rfl, rfl⟩ := ht.done
        exact .inr ⟨l1, c0.args, _, comp_eta hc ▸ h1, .inr (.inl ⟨ex, copyThrows_iff.2 hn, rfl, rfl, by simp⟩)⟩
    | letCall _ _ _ ex hc hr hn =>
        obtain ⟨rfl, rfl, rfl⟩ := ht.done
        exact .inr ⟨l1, c0.args, _, comp_eta hc ▸ h1, .inr (.inr (.inl ⟨ex, hr, hn, rfl, rfl, by simp⟩))⟩
    | letConn _ _ _ ex hc hr hd =>
        obtain ⟨rfl, rfl, rfl⟩ := ht.done
        exact .inr ⟨l1, c0.args, _, comp_eta hc ▸ h1,
          .inr (.inr (.inr ⟨ex, hr, connectThrows_iff.2 hd, rfl, rfl, by simp⟩))⟩
  · rintro (⟨hc, h⟩ | ⟨l0, vs, z, h, ⟨hr, l1, h1, rfl⟩ | ⟨ex, hn, rfl, rfl, rfl⟩ |
      ⟨ex, hr, hn, rfl, rfl, rfl⟩ | ⟨ex, hr, hd, rfl, rfl, rfl⟩⟩)
    · exact ⟨l, c, y, [], h, FR.of' (.letPass _ _ _ hc), by simp⟩
    · refine ⟨l0, _, z, _, h, FR.of (.letOk _ _ _ rfl hr) (under_iff.2
        ⟨l1, c, y, [], h1, FR.of' .fwd, rfl⟩), by simp⟩
    · exact ⟨l0, _, _, _, h, FR.of' (.letCopy _ _ _ ex rfl (copyThrows_iff.1 hn)), rfl⟩
    · exact ⟨l0, _, _, _, h, FR.of' (.letCall _ _ _ ex rfl hr hn), rfl⟩
    · exact ⟨l0, _, _, _, h, FR.of' (.letConn _ _ _ ex rfl hr (connectThrows_iff.1 hd)), rfl⟩

/-- `__sequence(a, b)`: if `a` succeeds its values are discarded and `b` runs where `a` completed;
otherwise `a`'s completion is the completion. -/
theorem seq_runs {e : Env} {a b : S} {x l c y} :
    Runs e (.seq a b) x l c y ↔
      (c.ch ≠ .value ∧ Runs e a x l c y) ∨
      (∃ l0 vs z, Runs e a x l0 (cvalue vs) z ∧
        ((∃ l1, Runs e b z l1 c y ∧ l = l0 ++ l1) ∨
         (∃ ex, ConnectThrows b ex ∧ c = cerror ex ∧ y = z ∧ l = l0 ++ [.threw ex]))) := by
  adapt
  constructor
  · rintro ⟨l1, c0, z, l2, h1, h2, rfl⟩
    obtain ⟨_, _, _, hc, ht, rfl⟩ := h2.inv
    cases hc with
    | seqPass _ hc =>
        obtain ⟨rfl, rfl, rfl⟩ := ht.done; left; exact ⟨hc, by simpa [Frame.env'] using h1⟩
    | seqThr _ ex hc hd =>
        obtain ⟨rfl, rfl, rfl⟩ := ht.done
        exact .inr ⟨l1, c0.args, _, comp_eta hc ▸ h1, .inr ⟨ex, connectThrows_iff.2 hd, rfl, rfl, by simp⟩⟩
    | seqOk _ hc =>
        obtain ⟨l3, c3, z3, l4, h3, h4, rfl⟩ := under_iff.1 ht
        obtain ⟨_, _, _, hc', ht', rfl⟩ := h4.inv
        cases hc'
        obtain ⟨rfl, rfl, rfl⟩ := ht'.done
        exact .inr ⟨l1, c0.args, z, comp_eta hc ▸ h1, .inl ⟨l3, h3, by simp⟩⟩
  · rintro (⟨hc, h⟩ | ⟨l0, vs, z, h, ⟨l1, h1, rfl⟩ | ⟨ex, hd, rfl, rfl, rfl⟩⟩)
    · exact ⟨l, c, y, [], h, FR.of' (.seqPass _ hc), by simp⟩
    · exact ⟨l0, _, z, _, h, FR.of (.seqOk _ rfl) (under_iff.2
        ⟨l1, c, y, [], h1, FR.of' .fwd, rfl⟩), by simp⟩
    · exact ⟨l0, _, _, _, h, FR.of' (.seqThr _ ex rfl (connectThrows_iff.1 hd)), rfl⟩

/-- continues_on: whatever the predecessor's completion, it is stored, the scheduler is scheduled
from the predecessor's context, and — if scheduling succeeds — delivered where scheduling completed;
a scheduling failure is delivered instead. If storing throws, the exception is delivered *on the
predecessor's context*. -/
theorem contOn_runs {e : Env} {lf : Leaf} {s : S} {x l c y} :
    Runs e (.contOn lf s) x l c y ↔
      ∃ l0 c0 z, Runs e s x l0 c0 z ∧
        ((∃ d, lf.allows d y = true ∧ c = (if d.ch = .value then c0 else d) ∧
            l = l0 ++ [.start lf.id z, .finish lf.id d y]) ∨
         (∃ ex, CopyThrows c0.args ∧ c = cerror ex ∧ y = z ∧ l = l0 ++ [.threw ex])) := by
  adapt
  constructor
  · rintro ⟨l1, c0, z, l2, h1, h2, rfl⟩
    obtain ⟨_, _, _, hc, ht, rfl⟩ := h2.inv
    refine ⟨l1, c0, z, by simpa [Frame.env'] using h1, ?_⟩
    cases hc with
    | contThr _ ex hn =>
        obtain ⟨rfl, rfl, rfl⟩ := ht.done
        exact .inr ⟨ex, copyThrows_iff.2 hn, rfl, rfl, by simp⟩
    | contOk _ =>
        obtain ⟨l3, d, z3, l4, h3, h4, rfl⟩ := under_iff.1 ht
        obtain ⟨hal, rfl⟩ := leaf_runs.1 h3
        obtain ⟨_, _, _, hc', ht', rfl⟩ := h4.inv
        cases hc' with
        | cont2V _ hd =>
            obtain ⟨rfl, rfl, rfl⟩ := ht'.done
            exact .inl ⟨d, hal, by simp [hd], by simp⟩
        | cont2E _ hd =>
            obtain ⟨rfl, rfl, rfl⟩ := ht'.done
            exact .inl ⟨_, hal, by simp [hd], by simp⟩
  · rintro ⟨l0, c0, z, h, ⟨d, hal, rfl, rfl⟩ | ⟨ex, hn, rfl, rfl, rfl⟩⟩
    · refine ⟨l0, _, z, [] ++ ([.start lf.id z, .finish lf.id d y] ++ []), h, FR.of (.contOk _) (under_iff.2
        ⟨_, d, y, [], leaf_runs.2 ⟨hal, rfl⟩, ?_, rfl⟩), by simp⟩
      by_cases hd : d.ch = .value
      · simp only [hd, ↓reduceIte]; exact FR.of' (.cont2V _ hd)
      · simp only [hd, ↓reduceIte]; exact FR.of' (.cont2E _ hd)
    · exact ⟨l0, _, _, _, h, FR.of' (.contThr _ ex (copyThrows_iff.1 hn)), rfl⟩

/-- finally: the initial completion is stored and the final sender runs where the initial one
completed; if it succeeds the stored completion is delivered, otherwise the final sender's own
completion. If storing throws the final sender does *not* run. -/
theorem fin_runs {e : Env} {a b : S} {x l c y} :
    Runs e (.fin a b) x l c y ↔
      ∃ l0 c0 z, Runs e a x l0 c0 z ∧
        ((∃ l1 d, Runs e b z l1 d y ∧ c = (if d.ch = .value then c0 else d) ∧ l = l0 ++ l1) ∨
         (∃ ex, CopyThrows c0.args ∧ sendsValue (sigs e b) = true ∧ c = cerror ex ∧ y = z ∧
            l = l0 ++ [.threw ex])) := by
  adapt
  constructor
  · rintro ⟨l1, c0, z, l2, h1, h2, rfl⟩
    obtain ⟨_, _, _, hc, ht, rfl⟩ := h2.inv
    refine ⟨l1, c0, z, by simpa [Frame.env'] using h1, ?_⟩
    generalize hsv : sendsValue (sigs e b) = sv at hc
    cases hc with
    | finThr _ ex hn =>
        obtain ⟨rfl, rfl, rfl⟩ := ht.done
        exact .inr ⟨ex, copyThrows_iff.2 hn, rfl, rfl, rfl, by simp⟩
    | finOk _ =>
        obtain ⟨l3, d, z3, l4, h3, h4, rfl⟩ := under_iff.1 ht
        obtain ⟨_, _, _, hc', ht', rfl⟩ := h4.inv
        cases hc' with
        | fin2V _ hd =>
            obtain ⟨rfl, rfl, rfl⟩ := ht'.done
            exact .inl ⟨l3, d, h3, by simp [hd], by simp⟩
        | fin2E _ hd =>
            obtain ⟨rfl, rfl, rfl⟩ := ht'.done
            exact .inl ⟨l3, _, h3, by simp [hd], by simp⟩
  · rintro ⟨l0, c0, z, h, ⟨l1, d, h1, rfl, rfl⟩ | ⟨ex, hn, hsv, rfl, rfl, rfl⟩⟩
    · refine ⟨l0, _, z, [] ++ (l1 ++ []), h, FR.of (.finOk _ _) (under_iff.2
        ⟨_, d, y, [], h1, ?_, rfl⟩), by simp⟩
      by_cases hd : d.ch = .value
      · simp only [hd, ↓reduceIte]; exact FR.of' (.fin2V _ hd)
      · simp only [hd, ↓reduceIte]; exact FR.of' (.fin2E _ hd)
    · refine ⟨l0, _, _, [.threw ex], h, ?_, rfl⟩
      rw [hsv]
      exact FR.of' (.finThr _ ex (copyThrows_iff.1 hn))

/-- stopped_as_optional: values are wrapped in an engaged optional, stopped becomes an empty one,
errors pass. -/
theorem sao_runs {e : Env} {s : S} {x l c y} :
    Runs e (.sao s) x l c y ↔
      (c.ch = .error ∧ Runs e s x l c y) ∨
      (∃ vs, Runs e s x l (cvalue vs) y ∧ c = cvalue [.some (singleTy (sigs e s)) (tupVal vs)]) ∨
      (∃ vs, Runs e s x l ⟨.stopped, vs⟩ y ∧ c = cvalue [.null (singleTy (sigs e s))]) ∨
      (∃ l0 vs ex, Runs e s x l0 (cvalue vs) y ∧ CopyThrows vs ∧ c = cerror ex ∧
        l = l0 ++ [.threw ex]) := by
  adapt
  constructor
  · rintro ⟨l1, c0, z, l2, h1, h2, rfl⟩
    obtain ⟨_, _, _, hc, ht, rfl⟩ := h2.inv
    cases hc with
    | saoThr _ ex hc hn =>
        obtain ⟨rfl, rfl, rfl⟩ := ht.done
        exact .inr (.inr (.inr ⟨l1, c0.args, ex, comp_eta hc ▸ h1, copyThrows_iff.2 hn, rfl, by simp⟩))
    | saoV _ hc =>
        obtain ⟨rfl, rfl, rfl⟩ := ht.done
        exact .inr (.inl ⟨c0.args, by simpa using comp_eta hc ▸ h1, rfl⟩)
    | saoS _ hc =>
        obtain ⟨rfl, rfl, rfl⟩ := ht.done
        exact .inr (.inr (.inl ⟨c0.args, by simpa using comp_eta hc ▸ h1, rfl⟩))
    | saoE _ hc =>
        obtain ⟨rfl, rfl, rfl⟩ := ht.done
        exact .inl ⟨hc, by simpa [Frame.env'] using h1⟩
  · rintro (⟨hc, h⟩ | ⟨vs, h, rfl⟩ | ⟨vs, h, rfl⟩ | ⟨l0, vs, ex, h, hn, rfl, rfl⟩)
    · exact ⟨l, c, y, [], h, FR.of' (.saoE _ hc), by simp⟩
    · exact ⟨l, _, y, [], h, FR.of' (.saoV _ rfl), by simp⟩
    · exact ⟨l, _, y, [], h, FR.of' (.saoS _ rfl), by simp⟩
    · exact ⟨l0, _, y, _, h, FR.of' (.saoThr _ ex rfl (copyThrows_iff.1 hn)), rfl⟩

/-- into_variant: values become one variant holding the tuple of values; the rest passes. -/
theorem ivar_runs {e : Env} {s : S} {x l c y} :
    Runs e (.ivar s) x l c y ↔
      (c.ch ≠ .value ∧ Runs e s x l c y) ∨
      (∃ vs, Runs e s x l (cvalue vs) y ∧
        c = cvalue [.alt (tupTy ((valueTys (sigs e s)).map tupTy)) (tupTy (tys vs)) (tupVal vs)]) ∨
      (∃ l0 vs ex, Runs e s x l0 (cvalue vs) y ∧ CopyThrows vs ∧ c = cerror ex ∧
        l = l0 ++ [.threw ex]) := by
  adapt
  constructor
  · rintro ⟨l1, c0, z, l2, h1, h2, rfl⟩
    obtain ⟨_, _, _, hc, ht, rfl⟩ := h2.inv
    cases hc with
    | ivarThr _ ex hc hn =>
        obtain ⟨rfl, rfl, rfl⟩ := ht.done
        exact .inr (.inr ⟨l1, c0.args, ex, comp_eta hc ▸ h1, copyThrows_iff.2 hn, rfl, by simp⟩)
    | ivarV _ hc =>
        obtain ⟨rfl, rfl, rfl⟩ := ht.done
        exact .inr (.inl ⟨c0.args, by simpa using comp_eta hc ▸ h1, rfl⟩)
    | ivarPass _ hc =>
        obtain ⟨rfl, rfl, rfl⟩ := ht.done
        exact .inl ⟨hc, by simpa [Frame.env'] using h1⟩
  · rintro (⟨hc, h⟩ | ⟨vs, h, rfl⟩ | ⟨l0, vs, ex, h, hn, rfl, rfl⟩)
    · exact ⟨l, c, y, [], h, FR.of' (.ivarPass _ hc), by simp⟩
    · exact ⟨l, _, y, [], h, FR.of' (.ivarV _ rfl), by simp⟩
    · exact ⟨l0, _, y, _, h, FR.of' (.ivarThr _ ex rfl (copyThrows_iff.1 hn)), rfl⟩

/-- materialize: every completion becomes a value completion carrying its tag. -/
theorem mat_runs {e : Env} {s : S} {x l c y} :
    Runs e (.mat s) x l c y ↔
      ∃ c0, Runs e s x l c0 y ∧ c = cvalue (.tag c0.ch :: c0.args) := by
  adapt
  constructor
  · rintro ⟨l1, c0, z, l2, h1, h2, rfl⟩
    obtain ⟨_, _, _, hc, ht, rfl⟩ := h2.inv
    cases hc
    obtain ⟨rfl, rfl, rfl⟩ := ht.done
    exact ⟨c0, by simpa [Frame.env'] using h1, rfl⟩
  · rintro ⟨c0, h, rfl⟩
    exact ⟨l, _, y, [], h, FR.of' .mat, by simp⟩

theorem asTag_some {vs : List Val} {ch : Chan} {rest : List Val} :
    asTag vs = some (ch, rest) ↔ vs = .tag ch :: rest := by
  cases vs with
  | nil => simp [asTag]
  | cons v vs => cases v <;> simp [asTag]

/-- dematerialize: a value completion whose first value is a tag becomes the completion it names. -/
theorem demat_runs {e : Env} {s : S} {x l c y} :
    Runs e (.demat s) x l c y ↔
      (c.ch ≠ .value ∧ Runs e s x l c y) ∨ Runs e s x l (cvalue (.tag c.ch :: c.args)) y := by
  adapt
  constructor
  · rintro ⟨l1, c0, z, l2, h1, h2, rfl⟩
    obtain ⟨_, _, _, hc, ht, rfl⟩ := h2.inv
    cases hc with
    | dematPass hc =>
        obtain ⟨rfl, rfl, rfl⟩ := ht.done
        exact .inl ⟨hc, by simpa [Frame.env'] using h1⟩
    | dematV ch rest hc ha =>
        obtain ⟨rfl, rfl, rfl⟩ := ht.done
        rw [asTag_some] at ha
        rw [comp_eta hc, ha] at h1
        exact .inr (by simpa [Frame.env'] using h1)
  · rintro (⟨hc, h⟩ | h)
    · exact ⟨l, c, y, [], h, FR.of' (.dematPass hc), by simp⟩
    · exact ⟨l, _, y, [], h, FR.of' (.dematV c.ch c.args rfl rfl), by simp⟩

/-- unless_stop_requested: either a stop request is observed at start and nothing runs, or it is
the child. -/
theorem unless_runs {e : Env} {s : S} {x l c y} :
    Runs e (.unless s) x l c y ↔
      Runs e s x l c y ∨ (stoppable e = true ∧ c = cstopped ∧ y = x ∧ l = []) := by
  constructor
  · intro h
    obtain ⟨l1, it, l2, hs, ht, rfl⟩ := (runs_iff.1 h).start_inv
    cases hs with
    | unlessStop _ h0 => obtain ⟨rfl, rfl, rfl⟩ := ht.done; exact .inr ⟨h0, rfl, rfl, rfl⟩
    | unlessGo _ h0 =>
        obtain ⟨l3, d, z3, l4, h3, h4, rfl⟩ := under_iff.1 ht
        obtain ⟨_, _, _, hc', ht', rfl⟩ := h4.inv
        cases hc'
        obtain ⟨rfl, rfl, rfl⟩ := ht'.done
        exact .inl (by simpa [Frame.env'] using h3)
    | unlessNo _ h0 => exact .inl (runs_iff.2 (by simpa using ht))
  · rintro (h | ⟨h, rfl, rfl, rfl⟩)
    · cases hs : stoppable e
      · exact SStep.run (l1 := []) (.unlessNo s hs) (runs_iff.1 h)
      · refine SStep.run (l1 := []) (.unlessGo s hs) (under_iff.2 ⟨l, c, y, [], h, FR.of' .fwd, by simp⟩)
    · exact SStep.run (.unlessStop s h) (.refl _)

/-- The sequential calls `bulk` makes on values `vs`, and the outcome. -/
inductive BulkCalls (f : BFn) : Nat → Nat → List Val → List Ev → Except Nat (List Val) → Prop
  /-- no index left -/
  | done {b vs} : BulkCalls f b b vs [] (.ok vs)
  /-- the call for index `b` succeeds and may have modified the values -/
  | next {b n vs vs' l r} : b < n → f.run b (b + 1) vs = .ok vs' → BulkCalls f (b + 1) n vs' l r →
      BulkCalls f b n vs (.callB f.id b (b + 1) vs :: l) r
  /-- the call for index `b` throws: no further calls -/
  | throw {b n vs ex} : b < n → f.run b (b + 1) vs = .error ex →
      BulkCalls f b n vs [.callB f.id b (b + 1) vs] (.error ex)

theorem bulkCalls_iff {f : BFn} {b m : Nat} {vs : List Val} {l : List Ev} {r} :
    BulkCalls f b (b + m) vs l r ↔ loopRes f vs b m = (l, r) := by
  induction m generalizing b vs l with
  | zero =>
      simp only [loopRes, Nat.add_zero, Prod.mk.injEq]
      constructor
      · intro h; cases h with
        | done => exact ⟨rfl, rfl⟩
        | next h _ _ => omega
        | throw h _ => omega
      · rintro ⟨rfl, rfl⟩; exact .done
  | succ m ih =>
      simp only [loopRes]
      constructor
      · intro h
        generalize hn : b + (m + 1) = n at h
        cases h with
        | done => omega
        | next h1 h2 h3 =>
            subst hn
            rw [h2]; simp only
            rw [show b + (m + 1) = b + 1 + m by omega, ih] at h3
            rw [h3]
        | throw h1 h2 => rw [h2]
      · cases hr : f.run b (b + 1) vs with
        | error ex =>
            rintro ⟨rfl, rfl⟩; exact .throw (by omega) hr
        | ok vs' =>
            simp only [Prod.mk.injEq]
            rintro ⟨rfl, rfl⟩
            refine .next (by omega) hr ?_
            rw [show b + (m + 1) = b + 1 + m by omega, ih]

/-- What the `bulk` family calls: `bulk_chunked` makes one call `f(0, n)` if `n > 0` (none if
`n = 0`); `bulk` and `bulk_unchunked` call `f(i)` for `i = 0, …, n-1` in order. -/
def BulkSpec (kd : BKind) (n : Nat) (f : BFn) (vs : List Val) (l : List Ev)
    (r : Except Nat (List Val)) : Prop :=
  match kd with
  | .chunked => (n = 0 ∧ l = [] ∧ r = .ok vs) ∨ (n ≠ 0 ∧ l = [.callB f.id 0 n vs] ∧ r = f.run 0 n vs)
  | _ => BulkCalls f 0 n vs l r

theorem bulkSpec_iff {kd n f vs l r} : BulkSpec kd n f vs l r ↔ bulkRes kd n f vs = (l, r) := by
  cases kd
  · simp only [BulkSpec, bulkRes]
    by_cases h : n = 0 <;> simp [h, eq_comm]
  · simp only [BulkSpec, bulkRes]; rw [← bulkCalls_iff]; simp
  · simp only [BulkSpec, bulkRes]; rw [← bulkCalls_iff]; simp

/-- `bulk` family (default implementation). -/
theorem bulk_runs {e : Env} {kd : BKind} {n : Nat} {f : BFn} {s : S} {x l c y} :
    Runs e (.bulk kd n f s) x l c y ↔
      (c.ch ≠ .value ∧ Runs e s x l c y) ∨
      (∃ l0 vs, Runs e s x l0 (cvalue vs) y ∧
        ((∃ lb vs', BulkSpec kd n f vs lb (.ok vs') ∧ c = cvalue vs' ∧ l = l0 ++ lb) ∨
         (∃ lb ex, BulkSpec kd n f vs lb (.error ex) ∧ f.noexc = false ∧ c = cerror ex ∧
            l = l0 ++ lb ++ [.threw ex]))) := by
  simp only [bulkSpec_iff]
  adapt
  constructor
  · rintro ⟨l1, c0, z, l2, h1, h2, rfl⟩
    obtain ⟨_, _, _, hc, ht, rfl⟩ := h2.inv
    cases hc with
    | bulkPass _ _ _ hc =>
        obtain ⟨rfl, rfl, rfl⟩ := ht.done
        exact .inl ⟨hc, by simpa [Frame.env'] using h1⟩
    | bulkOk _ _ _ lb vs hc hb =>
        obtain ⟨rfl, rfl, rfl⟩ := ht.done
        exact .inr ⟨l1, c0.args, comp_eta hc ▸ h1, .inl ⟨_, vs, hb, rfl, by simp⟩⟩
    | bulkThr _ _ _ lb ex hc hb hn =>
        obtain ⟨rfl, rfl, rfl⟩ := ht.done
        exact .inr ⟨l1, c0.args, comp_eta hc ▸ h1, .inr ⟨lb, ex, hb, hn, rfl, by simp⟩⟩
  · rintro (⟨hc, h⟩ | ⟨l0, vs, h, ⟨lb, vs', hb, rfl, rfl⟩ | ⟨lb, ex, hb, hn, rfl, rfl⟩⟩)
    · exact ⟨l, c, y, [], h, FR.of' (.bulkPass _ _ _ hc), by simp⟩
    · exact ⟨l0, _, y, _, h, FR.of' (.bulkOk _ _ _ lb vs' rfl hb), rfl⟩
    · exact ⟨l0, _, y, lb ++ [.threw ex], h, FR.of' (.bulkThr _ _ _ lb ex rfl hb hn), by simp⟩

end Verif.Sender
