import Verif.Sender.Chars
/-!
# repeat_n / repeat_until (C33)
-/
namespace Verif.Sender

/-- `m` successive runs of `s`, each completing with values accepted by `ok`, each started where the
previous one completed; `l` is the concatenation of their logs. -/
inductive Chain (e : Env) (s : S) (ok : List Val → Prop) : Nat → Nat → List Ev → Nat → Prop
  | nil {x} : Chain e s ok 0 x [] x
  | cons {m x l vs z l' y} : Runs e s x l (cvalue vs) z → ok vs → Chain e s ok m z l' y →
      Chain e s ok (m + 1) x (l ++ l') y

/-- How a round of a repeated sender can end the repetition without success, `z` being the context
where it begins: a stop request seen before it, an exception connecting or copying the child
(`again`: not the first round), or the child's own error / stopped (a throwing copy of the error
replaces it). -/
def RoundEnds (e : Env) (s : S) (again : Prop) (z : Nat) (l : List Ev) (c : Comp) (y : Nat) : Prop :=
  (c.ch ≠ .value ∧ Runs e s z l c y) ∨
  (∃ l1 vs ex, Runs e s z l1 ⟨.error, vs⟩ y ∧ CopyThrows vs ∧ c = cerror ex ∧ l = l1 ++ [.threw ex]) ∨
  (stoppable e = true ∧ c = cstopped ∧ y = z ∧ l = []) ∨
  (∃ ex, ConnectThrows s ex ∧ c = cerror ex ∧ y = z ∧ l = [.threw ex]) ∨
  (again ∧ s.cpt = true ∧ ∃ ex, c = cerror ex ∧ y = z ∧ l = [.threw ex])

/-- One bouncing round: `__sequence(schedule(trampoline), s)`. -/
theorem round_runs {e : Env} {s : S} {x l c y} :
    Runs e (.seq .tramp s) x l c y ↔
      Runs e s x l c y ∨ (stoppable e = true ∧ c = cstopped ∧ y = x ∧ l = []) ∨
      (∃ ex, ConnectThrows s ex ∧ c = cerror ex ∧ y = x ∧ l = [.threw ex]) := by
  rw [seq_runs]
  simp only [tramp_runs]
  constructor
  · rintro (⟨hc, ⟨rfl | ⟨h, rfl⟩, rfl, rfl⟩⟩ | ⟨l0, vs, z, ⟨h, rfl, rfl⟩, ⟨l1, h1, rfl⟩ | ⟨ex, hd, rfl, rfl, rfl⟩⟩)
    · exact absurd rfl hc
    · exact .inr (.inl ⟨h, rfl, rfl, rfl⟩)
    · exact .inl (by simpa using h1)
    · exact .inr (.inr ⟨ex, hd, rfl, rfl, rfl⟩)
  · rintro (h | ⟨h, rfl, rfl, rfl⟩ | ⟨ex, hd, rfl, rfl, rfl⟩)
    · exact .inr ⟨[], [], x, ⟨.inl rfl, rfl, rfl⟩, .inl ⟨l, h, rfl⟩⟩
    · exact .inl ⟨by simp, .inr ⟨h, rfl⟩, rfl, rfl⟩
    · exact .inr ⟨[], [], _, ⟨.inl rfl, rfl, rfl⟩, .inr ⟨ex, hd, rfl, rfl, rfl⟩⟩

/-- Spec of `repeat_n` with `n ≥ 1` rounds to go, `again` telling whether a round has run before. -/
def RepNSpec (e : Env) (s : S) (n : Nat) (again : Prop) (x : Nat) (l : List Ev) (c : Comp) (y : Nat) : Prop :=
  (Chain e s (fun _ => True) n x l y ∧ c = cvalue []) ∨
  ∃ m l0 z l1, m < n ∧ Chain e s (fun _ => True) m x l0 z ∧
    RoundEnds e s (0 < m ∨ again) z l1 c y ∧ l = l0 ++ l1

theorem not_copy_eptr {ex : Nat} : ¬ CopyThrows [.eptr ex] := by simp [CopyThrows, Val.ty, Ty.nt]

theorem err_not_value {vs : List Val} : (⟨.error, vs⟩ : Comp).ch ≠ .value := by simp

theorem repNSpec_cons {e : Env} {s : S} {n : Nat} {again : Prop} {x l0 vs z l c y}
    (h : Runs e s x l0 (cvalue vs) z) (h2 : RepNSpec e s n True z l c y) :
    RepNSpec e s (n + 1) again x (l0 ++ l) c y := by
  rcases h2 with ⟨h2, rfl⟩ | ⟨m, l2, z2, l3, hm, hch, hr, rfl⟩
  · exact .inl ⟨.cons h trivial h2, rfl⟩
  · refine .inr ⟨m + 1, _, z2, l3, by omega, .cons h trivial hch, ?_, by simp⟩
    simpa [RoundEnds] using hr

/-- One round under a repeating receiver. -/
theorem rep_round {e : Env} {s : S} {F : Frame} (he : F.env' e = e)
    (hE : ∀ {c z l d y}, c.ch = .error → (FR e F c z l d y ↔ (d = c ∧ y = z ∧ l = []) ∨
      (CopyThrows c.args ∧ ∃ ex, d = cerror ex ∧ y = z ∧ l = [.threw ex])))
    (hS : ∀ {c z l d y}, c.ch = .stopped → (FR e F c z l d y ↔ d = c ∧ y = z ∧ l = [])) {x l c y} :
    T1s e (.inl (.start (.seq .tramp s) [F] x)) l (.inl (.compl c [] y)) ↔
      (∃ l1 vs z l2, Runs e s x l1 (cvalue vs) z ∧ FR e F (cvalue vs) z l2 c y ∧ l = l1 ++ l2) ∨
      RoundEnds e s False x l c y := by
  rw [under_iff, he]
  constructor
  · rintro ⟨l1, c0, z, l2, h1, h2, rfl⟩
    rw [round_runs] at h1
    rcases h1 with h1 | ⟨h1, rfl, rfl, rfl⟩ | ⟨ex, h1, rfl, rfl, rfl⟩
    · cases hc : c0.ch with
      | value => rw [comp_eta hc] at h1 h2; exact .inl ⟨l1, _, z, l2, h1, h2, rfl⟩
      | error =>
          rcases (hE hc).1 h2 with ⟨rfl, rfl, rfl⟩ | ⟨hn, ex, rfl, rfl, rfl⟩
          · exact .inr (.inl ⟨by simp [hc], by simpa using h1⟩)
          · rw [comp_eta hc] at h1; exact .inr (.inr (.inl ⟨l1, _, ex, h1, hn, rfl, rfl⟩))
      | stopped =>
          obtain ⟨rfl, rfl, rfl⟩ := (hS hc).1 h2
          exact .inr (.inl ⟨by simp [hc], by simpa using h1⟩)
    · obtain ⟨rfl, rfl, rfl⟩ := (hS rfl).1 h2
      exact .inr (.inr (.inr (.inl ⟨h1, rfl, rfl, rfl⟩)))
    · rcases (hE rfl).1 h2 with ⟨rfl, rfl, rfl⟩ | ⟨hn, _⟩
      · exact .inr (.inr (.inr (.inr (.inl ⟨ex, h1, rfl, rfl, rfl⟩))))
      · exact absurd hn not_copy_eptr
  · rintro (⟨l1, vs, z, l2, h1, h2, rfl⟩ | ⟨hc, h⟩ | ⟨l1, vs, ex, h, hn, rfl, rfl⟩ | ⟨h, rfl, rfl, rfl⟩ |
      ⟨ex, h, rfl, rfl, rfl⟩ | ⟨h, _⟩)
    · exact ⟨l1, _, z, l2, round_runs.2 (.inl h1), h2, rfl⟩
    · refine ⟨l, c, y, [], round_runs.2 (.inl h), ?_, by simp⟩
      cases hc' : c.ch with
      | value => exact absurd hc' hc
      | error => exact (hE hc').2 (.inl ⟨rfl, rfl, rfl⟩)
      | stopped => exact (hS hc').2 ⟨rfl, rfl, rfl⟩
    · exact ⟨l1, _, y, [.threw ex], round_runs.2 (.inl h), (hE rfl).2 (.inr ⟨hn, ex, rfl, rfl, rfl⟩), rfl⟩
    · exact ⟨[], cstopped, _, [], round_runs.2 (.inr (.inl ⟨h, rfl, rfl, rfl⟩)), (hS rfl).2 ⟨rfl, rfl, rfl⟩, rfl⟩
    · exact ⟨[.threw ex], cerror ex, _, [], round_runs.2 (.inr (.inr ⟨ex, h, rfl, rfl, rfl⟩)),
        (hE rfl).2 (.inl ⟨rfl, rfl, rfl⟩), rfl⟩
    · exact h.elim

theorem repN_err {e : Env} {s : S} {n c z l d y} (hc : c.ch = .error) :
    FR e (.repN n s) c z l d y ↔ (d = c ∧ y = z ∧ l = []) ∨
      (CopyThrows c.args ∧ ∃ ex, d = cerror ex ∧ y = z ∧ l = [.threw ex]) := by
  constructor
  · intro h
    obtain ⟨_, _, _, hs, ht, rfl⟩ := h.inv
    cases hs with
    | repNErrThr _ _ ex _ hn =>
        obtain ⟨rfl, rfl, rfl⟩ := ht.done; exact .inr ⟨copyThrows_iff.2 hn, ex, rfl, rfl, rfl⟩
    | repNErr _ _ _ => obtain ⟨rfl, rfl, rfl⟩ := ht.done; exact .inl ⟨rfl, rfl, rfl⟩
    | _ => simp_all
  · rintro (⟨rfl, rfl, rfl⟩ | ⟨hn, ex, rfl, rfl, rfl⟩)
    · exact FR.of' (.repNErr _ _ hc)
    · exact FR.of' (.repNErrThr _ _ ex hc (copyThrows_iff.1 hn))

theorem repN_stop {e : Env} {s : S} {n c z l d y} (hc : c.ch = .stopped) :
    FR e (.repN n s) c z l d y ↔ d = c ∧ y = z ∧ l = [] := by
  constructor
  · intro h
    obtain ⟨_, _, _, hs, ht, rfl⟩ := h.inv
    cases hs <;> simp_all
    obtain ⟨rfl, rfl, rfl⟩ := ht.done; exact ⟨rfl, rfl, rfl⟩
  · rintro ⟨rfl, rfl, rfl⟩
    exact FR.of' (.repNStop _ _ hc)

theorem repN_val {e : Env} {s : S} {n vs z l d y} :
    FR e (.repN (n + 1) s) (cvalue vs) z l d y ↔
      (n = 0 ∧ d = cvalue [] ∧ y = z ∧ l = []) ∨
      (n ≠ 0 ∧ (T1s e (.inl (.start (.seq .tramp s) [.repN n s] z)) l (.inl (.compl d [] y)) ∨
        (s.cpt = true ∧ ∃ ex, d = cerror ex ∧ y = z ∧ l = [.threw ex]))) := by
  constructor
  · intro h
    obtain ⟨_, _, _, hs, ht, rfl⟩ := h.inv
    cases hs with
    | repNDone _ _ _ hn => obtain ⟨rfl, rfl, rfl⟩ := ht.done; exact .inl ⟨by simpa using hn, rfl, rfl, rfl⟩
    | repNThr _ _ ex _ hn hcp =>
        obtain ⟨rfl, rfl, rfl⟩ := ht.done
        exact .inr ⟨by simpa using hn, .inr ⟨hcp, ex, rfl, rfl, rfl⟩⟩
    | repNMore _ _ _ hn => exact .inr ⟨by simpa using hn, .inl (by simpa using ht)⟩
    | repNErrThr _ _ _ hc => exact absurd hc (by simp)
    | repNErr _ _ hc => exact absurd hc (by simp)
    | repNStop _ _ hc => exact absurd hc (by simp)
  · rintro (⟨rfl, rfl, rfl, rfl⟩ | ⟨hn, h | ⟨h, ex, rfl, rfl, rfl⟩⟩)
    · exact FR.of' (.repNDone _ _ rfl rfl)
    · exact FR.of (l1 := []) (.repNMore _ _ rfl (by simpa using hn)) (by simpa using h)
    · exact FR.of' (.repNThr _ _ ex rfl (by simpa using hn) h)

/-- `start` of a repeat_n operation with `n + 1` rounds to go. -/
theorem repN_under {e : Env} {s : S} : ∀ (n : Nat) {x l c y},
    T1s e (.inl (.start (.seq .tramp s) [.repN (n + 1) s] x)) l (.inl (.compl c [] y)) ↔
      RepNSpec e s (n + 1) False x l c y := by
  intro n
  induction n with
  | zero =>
      intro x l c y
      rw [rep_round rfl repN_err repN_stop]
      simp only [repN_val]
      constructor
      · rintro (⟨l1, vs, z, l2, h1, ⟨_, rfl, rfl, rfl⟩ | ⟨h2, _⟩, rfl⟩ | h)
        · exact .inl ⟨.cons h1 trivial .nil, rfl⟩
        · exact absurd rfl h2
        · exact .inr ⟨0, [], x, l, by omega, .nil, by simpa using h, rfl⟩
      · rintro (⟨h, rfl⟩ | ⟨m, l0, z, l1, hm, hch, hr, rfl⟩)
        · cases h with
          | cons h1 _ h2 => cases h2; exact .inl ⟨_, _, _, [], h1, .inl ⟨trivial, rfl, rfl, rfl⟩, rfl⟩
        · obtain rfl : m = 0 := by omega
          cases hch
          exact .inr (by simpa using hr)
  | succ n ih =>
      intro x l c y
      rw [rep_round rfl repN_err repN_stop]
      simp only [repN_val, ih]
      constructor
      · rintro (⟨l1, vs, z, l2, h1, ⟨h2, _⟩ | ⟨_, h2 | ⟨h2, ex, rfl, rfl, rfl⟩⟩, rfl⟩ | h)
        · exact absurd h2 (by omega)
        · apply repNSpec_cons h1
          rcases h2 with h2 | ⟨m, l0, z0, l3, hm, hch, hr, rfl⟩
          · exact .inl h2
          · refine .inr ⟨m, l0, z0, l3, hm, hch, ?_, rfl⟩
            rcases hr with hr | hr | hr | hr | ⟨h, hr⟩
            · exact .inl hr
            · exact .inr (.inl hr)
            · exact .inr (.inr (.inl hr))
            · exact .inr (.inr (.inr (.inl hr)))
            · exact .inr (.inr (.inr (.inr ⟨.inr trivial, hr⟩)))
        · exact .inr ⟨1, _, _, _, by omega, by simpa using Chain.cons h1 trivial .nil,
            .inr (.inr (.inr (.inr ⟨.inl (by omega), h2, ex, rfl, rfl, rfl⟩))), rfl⟩
        · exact .inr ⟨0, [], x, l, by omega, .nil, by simpa using h, rfl⟩
      · rintro (⟨h, rfl⟩ | ⟨m, l0, z, l1, hm, hch, hr, rfl⟩)
        · cases h with
          | cons h1 _ h2 => exact .inl ⟨_, _, _, _, h1, .inr ⟨by omega, .inl (.inl ⟨h2, rfl⟩)⟩, rfl⟩
        · cases hch with
          | nil => exact .inr (by simpa using hr)
          | @cons m _ lA vs zA lB _ h1 _ h2 =>
              left
              refine ⟨lA, vs, zA, lB ++ l1, h1, .inr ⟨by omega, ?_⟩, by simp⟩
              by_cases hcp : RoundEnds e s (0 < m ∨ False) z l1 c y
              · exact .inl (.inr ⟨m, lB, z, l1, by omega, h2, hcp, rfl⟩)
              · right
                rcases hr with hr | hr | hr | hr | ⟨_, hcpt, hr⟩
                · exact absurd (.inl hr) hcp
                · exact absurd (.inr (.inl hr)) hcp
                · exact absurd (.inr (.inr (.inl hr))) hcp
                · exact absurd (.inr (.inr (.inr (.inl hr)))) hcp
                · cases m with
                  | zero =>
                      cases h2
                      obtain ⟨ex, rfl, rfl, rfl⟩ := hr
                      exact ⟨hcpt, ex, rfl, rfl, by simp⟩
                  | succ m =>
                      exact absurd (.inr (.inr (.inr (.inr ⟨.inl (by omega), hcpt, hr⟩)))) hcp

/-- repeat_n(s, n): either `n` runs of `s` succeed one after the other and it completes with no
values, or after `m < n` successful runs the next round ends it. -/
theorem repeatN_runs {e : Env} {s : S} {n x l c y} :
    Runs e (.repN n s) x l c y ↔
      (Chain e s (fun _ => True) n x l y ∧ c = cvalue []) ∨
      ∃ m l0 z l1, m < n ∧ Chain e s (fun _ => True) m x l0 z ∧
        RoundEnds e s (0 < m) z l1 c y ∧ l = l0 ++ l1 := by
  cases n with
  | zero =>
      constructor
      · intro h
        obtain ⟨l1, it, l2, hs, ht, rfl⟩ := (runs_iff.1 h).start_inv
        cases hs with
        | repN0 => obtain ⟨rfl, rfl, rfl⟩ := ht.done; exact .inl ⟨.nil, rfl⟩
        | repN _ _ hn => exact absurd rfl hn
      · rintro (⟨h, rfl⟩ | ⟨m, _, _, _, hm, _⟩)
        · cases h; exact SStep.run (.repN0 s) (.refl _)
        · omega
  | succ n =>
      have := @repN_under e s n x l c y
      simp only [RepNSpec, or_false] at this
      rw [← this]
      constructor
      · intro h
        obtain ⟨l1, it, l2, hs, ht, rfl⟩ := (runs_iff.1 h).start_inv
        cases hs with
        | repN _ _ _ => simpa using ht
      · intro h
        exact SStep.run (l1 := []) (.repN _ _ (by omega)) h

/-! ### repeat_until -/

theorem repU_err {e : Env} {s : S} {c z l d y} (hc : c.ch = .error) :
    FR e (.repU s) c z l d y ↔ (d = c ∧ y = z ∧ l = []) ∨
      (CopyThrows c.args ∧ ∃ ex, d = cerror ex ∧ y = z ∧ l = [.threw ex]) := by
  constructor
  · intro h
    obtain ⟨_, _, _, hs, ht, rfl⟩ := h.inv
    cases hs with
    | repUErrThr _ ex _ hn =>
        obtain ⟨rfl, rfl, rfl⟩ := ht.done; exact .inr ⟨copyThrows_iff.2 hn, ex, rfl, rfl, rfl⟩
    | repUErr _ _ => obtain ⟨rfl, rfl, rfl⟩ := ht.done; exact .inl ⟨rfl, rfl, rfl⟩
    | _ => simp_all
  · rintro (⟨rfl, rfl, rfl⟩ | ⟨hn, ex, rfl, rfl, rfl⟩)
    · exact FR.of' (.repUErr _ hc)
    · exact FR.of' (.repUErrThr _ ex hc (copyThrows_iff.1 hn))

theorem repU_stop {e : Env} {s : S} {c z l d y} (hc : c.ch = .stopped) :
    FR e (.repU s) c z l d y ↔ d = c ∧ y = z ∧ l = [] := by
  constructor
  · intro h
    obtain ⟨_, _, _, hs, ht, rfl⟩ := h.inv
    cases hs <;> simp_all
    obtain ⟨rfl, rfl, rfl⟩ := ht.done; exact ⟨rfl, rfl, rfl⟩
  · rintro ⟨rfl, rfl, rfl⟩
    exact FR.of' (.repUStop _ hc)

/-- The values are one boolean (`bool` or `std::bool_constant`) equal to `b`. -/
def IsBool (b : Bool) (vs : List Val) : Prop := vs = [.bool b] ∨ vs = [.bconst b]

theorem isBool_iff {b : Bool} {vs : List Val} : asBool vs = some b ↔ IsBool b vs := by
  unfold IsBool
  match vs with
  | [] => simp [asBool]
  | [v] => cases v <;> simp [asBool]
  | _ :: _ :: _ => simp [asBool]

theorem repU_val {e : Env} {s : S} {vs z l d y} :
    FR e (.repU s) (cvalue vs) z l d y ↔
      (IsBool true vs ∧ d = cvalue [] ∧ y = z ∧ l = []) ∨
      (IsBool false vs ∧ (T1s e (.inl (.start (.seq .tramp s) [.repU s] z)) l (.inl (.compl d [] y)) ∨
        (s.cpt = true ∧ ∃ ex, d = cerror ex ∧ y = z ∧ l = [.threw ex]))) := by
  simp only [← isBool_iff]
  constructor
  · intro h
    obtain ⟨_, _, _, hs, ht, rfl⟩ := h.inv
    cases hs with
    | repUDone _ _ hn => obtain ⟨rfl, rfl, rfl⟩ := ht.done; exact .inl ⟨by simpa using hn, rfl, rfl, rfl⟩
    | repUThr _ ex _ hn hcp =>
        obtain ⟨rfl, rfl, rfl⟩ := ht.done
        exact .inr ⟨by simpa using hn, .inr ⟨hcp, ex, rfl, rfl, rfl⟩⟩
    | repUMore _ _ hn => exact .inr ⟨by simpa using hn, .inl (by simpa using ht)⟩
    | repUErrThr _ _ hc => exact absurd hc (by simp)
    | repUErr _ hc => exact absurd hc (by simp)
    | repUStop _ hc => exact absurd hc (by simp)
  · rintro (⟨h, rfl, rfl, rfl⟩ | ⟨hn, h | ⟨h, ex, rfl, rfl, rfl⟩⟩)
    · exact FR.of' (.repUDone _ rfl h)
    · exact FR.of (l1 := []) (.repUMore _ rfl hn) (by simpa using h)
    · exact FR.of' (.repUThr _ ex rfl hn h)

/-- Spec of repeat_until: `m` runs yield false, then either a run yields true, or a round ends it. -/
def RepUSpec (e : Env) (s : S) (again : Prop) (x : Nat) (l : List Ev) (c : Comp) (y : Nat) : Prop :=
  ∃ m l0 z l1, Chain e s (IsBool false) m x l0 z ∧ l = l0 ++ l1 ∧
    ((∃ vs, Runs e s z l1 (cvalue vs) y ∧ IsBool true vs ∧ c = cvalue []) ∨
     RoundEnds e s (0 < m ∨ again) z l1 c y)

/-- Number of moves of a run. -/
inductive T1n (root : Env) : Nat → Item → List Ev → Item → Prop
  | refl it : T1n root 0 it [] it
  | head {n a l b l' c} : T1 root a l b → T1n root n b l' c → T1n root (n + 1) a (l ++ l') c

theorem T1n_iff {root a l b} : T1s root a l b ↔ ∃ n, T1n root n a l b := by
  constructor
  · intro h
    induction h with
    | refl it => exact ⟨0, .refl it⟩
    | head h1 _ ih => obtain ⟨n, h⟩ := ih; exact ⟨n + 1, .head h1 h⟩
  · rintro ⟨n, h⟩
    induction h with
    | refl it => exact .refl it
    | head h1 _ ih => exact .head h1 ih

/-- Splitting, with lengths. -/
theorem T1n.split {root : Env} {n : Nat} {it : Item} {l : List Ev} {d : Comp} {y : Nat} {k : List Frame}
    {a : Item} (h : T1n root n it l (.inl (.compl d [] y))) (ha : it = a.app k) :
    ∃ l1 c x l2 n', n' ≤ n ∧ T1s (envOf root k) a l1 (.inl (.compl c [] x)) ∧
      T1n root n' (.inl (.compl c k x)) l2 (.inl (.compl d [] y)) ∧ l = l1 ++ l2 := by
  generalize hb : (Sum.inl (.compl d [] y) : Item) = b at h
  induction h generalizing a with
  | refl it =>
      subst hb
      rcases a with (⟨s, j, x⟩ | ⟨c, j, x⟩) | ⟨lf, j⟩
      · cases ha
      · injection ha with ha; injection ha with h1 h2 h3
        cases j with
        | nil =>
          simp only [List.nil_append] at h2
          subst h1 h2 h3
          exact ⟨[], _, _, [], 0, by omega, .refl _, .refl _, rfl⟩
        | cons f j => cases h2
      · cases ha
  | head h1 h2 ih =>
      subst ha
      rcases h1.unapp with ⟨c, x, rfl⟩ | ⟨b0, rfl, h0⟩
      · subst hb; exact ⟨[], c, x, _, _, Nat.le_refl _, .refl _, .head h1 h2, rfl⟩
      · obtain ⟨l1, c, x, l2, n', hn, hA, hB, rfl⟩ := ih rfl hb
        exact ⟨_, c, x, l2, n', by omega, .head h0 hA, hB, (List.append_assoc ..).symm⟩

theorem repU_spec_of {e : Env} {s : S} : ∀ (n : Nat) {x l c y},
    T1n e n (.inl (.start (.seq .tramp s) [.repU s] x)) l (.inl (.compl c [] y)) →
      RepUSpec e s False x l c y := by
  intro n
  induction n using Nat.strongRecOn with
  | _ n ih =>
    intro x l c y h
    obtain ⟨l1, c0, z, l2, n', hn', h1, h2, rfl⟩ :=
      T1n.split (k := [.repU s]) (a := .inl (.start (.seq .tramp s) [] x)) h rfl
    have hfr : FR e (.repU s) c0 z l2 c y := T1n_iff.2 ⟨n', h2⟩
    have h3 : Runs e (.seq .tramp s) x l1 c0 z := runs_iff.2 h1
    have hgen : T1s e (.inl (.start (.seq .tramp s) [.repU s] x)) (l1 ++ l2) (.inl (.compl c [] y)) :=
      T1n_iff.2 ⟨n, h⟩
    by_cases hf : c0.ch = .value ∧ asBool c0.args = some false
    · -- another round
      cases h2 with
      | head g1 g2 =>
        cases g1 with
        | compl g1 =>
          obtain ⟨hc, hb⟩ := hf
          rw [comp_eta hc] at h3
          have h4 : Runs e s x l1 (cvalue c0.args) z := by
            rcases round_runs.1 h3 with h | ⟨_, h, _⟩ | ⟨_, _, h, _⟩
            · exact h
            · exact absurd h (by simp)
            · exact absurd h (by simp)
          cases g1 with
          | repUDone _ _ hb' => rw [hb] at hb'; cases hb'
          | repUThr _ ex _ _ hcp =>
              obtain ⟨rfl, rfl, rfl⟩ := (T1n_iff.2 ⟨_, g2⟩).done
              exact ⟨1, l1, _, [.threw ex], by simpa using Chain.cons h4 (isBool_iff.1 hb) .nil, by simp,
                .inr (.inr (.inr (.inr (.inr ⟨.inl (by omega), hcp, ex, rfl, rfl, rfl⟩))))⟩
          | repUMore _ _ _ =>
              obtain ⟨m, l0, z0, l3, hch, rfl, hr⟩ := ih _ (by omega) g2
              refine ⟨m + 1, l1 ++ l0, z0, l3, .cons h4 (isBool_iff.1 hb) hch, by simp, ?_⟩
              rcases hr with hr | hr | hr | hr | hr | ⟨h, hr⟩
              · exact .inl hr
              · exact .inr (.inl hr)
              · exact .inr (.inr (.inl hr))
              · exact .inr (.inr (.inr (.inl hr)))
              · exact .inr (.inr (.inr (.inr (.inl hr))))
              · exact .inr (.inr (.inr (.inr (.inr ⟨.inl (by omega), hr⟩))))
          | repUErrThr _ _ hc' => rw [hc] at hc'; cases hc'
          | repUErr _ hc' => rw [hc] at hc'; cases hc'
          | repUStop _ hc' => rw [hc] at hc'; cases hc'
    · -- the last round
      cases hc : c0.ch with
      | value =>
          rw [comp_eta hc] at h3 hfr
          have h4 : Runs e s x l1 (cvalue c0.args) z := by
            rcases round_runs.1 h3 with h | ⟨_, h, _⟩ | ⟨_, _, h, _⟩
            · exact h
            · exact absurd h (by simp)
            · exact absurd h (by simp)
          rcases repU_val.1 hfr with ⟨hb, rfl, rfl, rfl⟩ | ⟨hb, _⟩
          · exact ⟨0, [], x, l1, .nil, by simp, .inl ⟨c0.args, h4, hb, rfl⟩⟩
          · exact absurd ⟨hc, isBool_iff.2 hb⟩ hf
      | error =>
          have : RoundEnds e s False x (l1 ++ l2) c y := by
            rcases (repU_err hc).1 hfr with ⟨rfl, rfl, rfl⟩ | ⟨hn, ex, rfl, rfl, rfl⟩
            · rcases round_runs.1 h3 with h5 | ⟨_, h5, _⟩ | ⟨ex, h5, rfl, rfl, rfl⟩
              · exact .inl ⟨by simp [hc], by simpa using h5⟩
              · rw [h5] at hc; cases hc
              · exact .inr (.inr (.inr (.inl ⟨ex, h5, rfl, rfl, rfl⟩)))
            · rcases round_runs.1 h3 with h5 | ⟨_, h5, _⟩ | ⟨ex, h5, rfl, rfl, rfl⟩
              · rw [comp_eta hc] at h5
                exact .inr (.inl ⟨l1, _, ex, h5, hn, rfl, rfl⟩)
              · rw [h5] at hc; cases hc
              · exact absurd hn not_copy_eptr
          exact ⟨0, [], x, _, .nil, rfl, .inr (by simpa using this)⟩
      | stopped =>
          obtain ⟨rfl, rfl, rfl⟩ := (repU_stop hc).1 hfr
          have : RoundEnds e s False x (l1 ++ []) c y := by
            rcases round_runs.1 h3 with h5 | ⟨h5, rfl, rfl, rfl⟩ | ⟨ex, _, h5, _⟩
            · exact .inl ⟨by simp [hc], by simpa using h5⟩
            · exact .inr (.inr (.inl ⟨h5, rfl, rfl, rfl⟩))
            · rw [h5] at hc; cases hc
          exact ⟨0, [], x, _, .nil, rfl, .inr (by simpa using this)⟩

theorem repU_of_spec {e : Env} {s : S} : ∀ (m : Nat) {x l0 z l1 c y},
    Chain e s (IsBool false) m x l0 z →
    ((∃ vs, Runs e s z l1 (cvalue vs) y ∧ IsBool true vs ∧ c = cvalue []) ∨
     RoundEnds e s (0 < m) z l1 c y) →
    T1s e (.inl (.start (.seq .tramp s) [.repU s] x)) (l0 ++ l1) (.inl (.compl c [] y)) := by
  intro m
  induction m with
  | zero =>
      intro x l0 z l1 c y hch hr
      cases hch
      rw [rep_round rfl repU_err repU_stop]
      rcases hr with ⟨vs, h, hb, rfl⟩ | hr
      · exact .inl ⟨l1, vs, _, [], h, repU_val.2 (.inl ⟨hb, rfl, rfl, rfl⟩), by simp⟩
      · exact .inr (by simpa using hr)
  | succ m ih =>
      intro x l0 z l1 c y hch hr
      cases hch with
      | @cons m _ lA vs zA lB _ h1 hb h2 =>
        rw [rep_round rfl repU_err repU_stop, List.append_assoc]
        left
        refine ⟨lA, vs, zA, lB ++ l1, h1, repU_val.2 (.inr ⟨hb, ?_⟩), rfl⟩
        rcases hr with hr | hr | hr | hr | hr | ⟨_, hcp, hr⟩
        · exact .inl (ih h2 (.inl hr))
        · exact .inl (ih h2 (.inr (.inl hr)))
        · exact .inl (ih h2 (.inr (.inr (.inl hr))))
        · exact .inl (ih h2 (.inr (.inr (.inr (.inl hr)))))
        · exact .inl (ih h2 (.inr (.inr (.inr (.inr (.inl hr))))))
        · cases m with
          | zero =>
              cases h2
              obtain ⟨ex, rfl, rfl, rfl⟩ := hr
              exact .inr ⟨hcp, ex, rfl, rfl, by simp⟩
          | succ m => exact .inl (ih h2 (.inr (.inr (.inr (.inr (.inr ⟨by omega, hcp, hr⟩))))))

/-- repeat_until(s): `m` runs yield false, one after the other; then a run yields true and it
completes with no values, or the next round ends it. -/
theorem repeatUntil_runs {e : Env} {s : S} {x l c y} :
    Runs e (.repU s) x l c y ↔
      ∃ m l0 z l1, Chain e s (IsBool false) m x l0 z ∧ l = l0 ++ l1 ∧
        ((∃ vs, Runs e s z l1 (cvalue vs) y ∧ IsBool true vs ∧ c = cvalue []) ∨
         RoundEnds e s (0 < m) z l1 c y) := by
  constructor
  · intro h
    obtain ⟨l1, it, l2, hs, ht, rfl⟩ := (runs_iff.1 h).start_inv
    cases hs with
    | repU _ =>
        obtain ⟨n, hn⟩ := T1n_iff.1 ht
        simpa [RepUSpec] using repU_spec_of n hn
  · rintro ⟨m, l0, z, l1, hch, rfl, hr⟩
    exact SStep.run (l1 := []) (.repU _) (repU_of_spec m hch hr)

end Verif.Sender
