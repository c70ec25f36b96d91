import Verif.ParSched.Spec
set_option maxHeartbeats 1000000
namespace Verif.ParSched

/-! ## Covering -/

theorem cover_append (l m : List (Nat × Nat)) (i : Nat) : cover (l ++ m) i = cover l i + cover m i := by
  induction l with
  | nil => simp [cover]
  | cons r rs ih => simp only [List.cons_append, cover, ih]; omega

theorem cover_single (r : Nat × Nat) (i : Nat) : cover [r] i = if r.1 ≤ i ∧ i < r.2 then 1 else 0 := by simp [cover]

/-- indices covered by the invocations of several `execute` calls -/
def covers (c : Cfg) : List (Nat × Nat) → Nat → Nat
  | [], _ => 0
  | r :: rs, i => cover (work c r) i + covers c rs i

/-- … by running ones -/
def coverr : List (List (Nat × Nat)) → Nat → Nat
  | [], _ => 0
  | l :: ls, i => cover l i + coverr ls i

theorem coverr_append (l m : List (List (Nat × Nat))) (i : Nat) : coverr (l ++ m) i = coverr l i + coverr m i := by
  induction l with
  | nil => simp [coverr]
  | cons r rs ih => simp only [List.cons_append, coverr, ih]; omega

theorem covers_erase (c : Cfg) (l : List (Nat × Nat)) (k : Nat) (r : Nat × Nat) (i : Nat) (h : l[k]? = some r) :
    covers c (l.eraseIdx k) i + cover (work c r) i = covers c l i := by
  induction l generalizing k with
  | nil => simp at h
  | cons x xs ih =>
    cases k with
    | zero => simp at h; subst h; simp only [List.eraseIdx_cons_zero, covers]; omega
    | succ k => simp at h; have := ih k h; simp only [List.eraseIdx_cons_succ, covers]; omega

theorem coverr_erase (l : List (List (Nat × Nat))) (k : Nat) (r : List (Nat × Nat)) (i : Nat) (h : l[k]? = some r) :
    coverr (l.eraseIdx k) i + cover r i = coverr l i := by
  induction l generalizing k with
  | nil => simp at h
  | cons x xs ih =>
    cases k with
    | zero => simp at h; subst h; simp only [List.eraseIdx_cons_zero, coverr]; omega
    | succ k => simp at h; have := ih k h; simp only [List.eraseIdx_cons_succ, coverr]; omega

theorem coverr_set (l : List (List (Nat × Nat))) (k : Nat) (r r' : List (Nat × Nat)) (i : Nat) (h : l[k]? = some r) :
    coverr (l.set k r') i + cover r i = coverr l i + cover r' i := by
  induction l generalizing k with
  | nil => simp at h
  | cons x xs ih =>
    cases k with
    | zero => simp at h; subst h; simp only [List.set_cons_zero, coverr]; omega
    | succ k => simp at h; have := ih k h; simp only [List.set_cons_succ, coverr]; omega

/-! ## Invariant -/

structure Inv (c : Cfg) (execs : List (Nat × Nat)) (s : St) : Prop where
  sum : ∀ i, s.throws = 0 → s.refused = false → cover s.calls i + coverr s.run i + covers c s.todo i = covers c execs i
  fin : s.fin = true → s.todo = [] ∧ s.run = []
  sigT : c.front = .task → s.sigs.length = (if s.fin then 1 else 0) + s.throws
  sigP : c.front = .par → s.sigs.length = (if s.fin then 1 else 0)
  term : c.front = .par → (s.term = true ↔ s.throws ≠ 0)
  termT : c.front = .task → s.term = true → s.calls = [] ∧ s.sigs = []
  fresh : s.fresh = true → s.run = [] ∧ s.throws = 0 ∧ s.fin = false ∧ s.calls = [] ∧ s.sigs = []
  ref : s.refused = true → s.calls = [] ∧ s.fin = true ∧ s.throws = 0
  val : s.refused = false → s.throws = 0 → s.sigs = if s.fin then [Sig.value] else []

theorem inv_init (c : Cfg) (execs : List (Nat × Nat)) : Inv c execs (init execs) := by
  constructor <;> simp [init, cover, coverr]

theorem inv_step (c : Cfg) (execs : List (Nat × Nat)) (s : St) (a : Act) (s' : St) (h : Inv c execs s)
    (hs : step c s a = some s') : Inv c execs s' := by
  unfold step at hs
  split at hs
  · cases hs
  rename_i ht
  have ht : s.term = false := by simpa using ht
  cases a with
  | refuse stop =>
    simp only at hs
    split at hs
    · rename_i hf
      have hq := h.fresh hf
      split at hs
      · rename_i hc
        have hrf : s.refused = false := by
          cases hx : s.refused with
          | false => rfl
          | true => have := (h.ref hx).2.1; rw [hq.2.2.1] at this; cases this
        cases hs
        constructor <;> simp only
        case sum => exact h.sum
        case val => exact h.val
        all_goals simp [hq, hc, hrf]
      · cases hs
        constructor <;> simp only <;> simp [hq, ht]
    · cases hs
  | begin k =>
    simp only at hs
    split at hs
    · rename_i r hr
      have hnf : s.fin = false := by
        cases hf : s.fin with
        | false => rfl
        | true => have := (h.fin hf).1; rw [this] at hr; simp at hr
      have hnr : s.refused = false := by
        cases hf : s.refused with
        | false => rfl
        | true => have := (h.ref hf).2.1; rw [hnf] at this; cases this
      cases hs
      constructor <;> simp only
      case sum =>
        intro i h1 h2
        have := h.sum i h1 h2
        have := covers_erase c s.todo k r i hr
        rw [coverr_append]; simp only [coverr]; omega
      case fin => simp [hnf]
      case fresh => simp
      case ref => simp [hnr]
      case sigT => exact h.sigT
      case sigP => exact h.sigP
      case term => exact h.term
      case termT => exact h.termT
      case val => exact h.val
    · cases hs
  | call k thr =>
    simp only at hs
    split at hs
    · rename_i r rs hr
      have hnf : s.fin = false := by
        cases hf : s.fin with
        | false => rfl
        | true => have := (h.fin hf).2; rw [this] at hr; simp at hr
      have hnr : s.refused = false := by
        cases hf : s.refused with
        | false => rfl
        | true => have := (h.ref hf).2.1; rw [hnf] at this; cases this
      have hfr : s.fresh = false := by
        cases hf : s.fresh with
        | false => rfl
        | true => have := (h.fresh hf).1; rw [this] at hr; simp at hr
      split at hs
      · split at hs
        · rename_i hfp
          cases hs
          constructor <;> simp only <;> simp [hnf, hnr, hfr, hfp]
          case sigP => have := h.sigP hfp; simpa [hnf] using this
        · rename_i hfp
          cases hs
          constructor <;> simp only <;> simp [hnf, hnr, hfr, hfp, ht]
          case sigT => have := h.sigT hfp; simp [hnf] at this; exact this
      · cases hs
        constructor <;> simp only
        case sum =>
          intro i h1 h2
          have := h.sum i h1 h2
          have := coverr_set s.run k _ rs i hr
          rw [cover_append, cover_single]; simp only [cover] at this; omega
        case fin => simp [hnf]
        case fresh => simp [hfr]
        case ref => simp [hnr]
        case sigT => exact h.sigT
        case sigP => exact h.sigP
        case term => exact h.term
        case termT => simp [ht]
        case val => exact h.val
    · cases hs
  | ret k =>
    simp only at hs
    split at hs
    · rename_i hr
      have hnf : s.fin = false := by
        cases hf : s.fin with
        | false => rfl
        | true => have := (h.fin hf).2; rw [this] at hr; simp at hr
      have hfr : s.fresh = false := by
        cases hf : s.fresh with
        | false => rfl
        | true => have := (h.fresh hf).1; rw [this] at hr; simp at hr
      cases hs
      constructor <;> simp only
      case sum =>
        intro i h1 h2
        have := h.sum i h1 h2
        have := coverr_erase s.run k _ i hr
        simp only [cover] at this; omega
      case fin => simp [hnf]
      case fresh => simp [hfr]
      case ref => exact h.ref
      case sigT => exact h.sigT
      case sigP => exact h.sigP
      case term => exact h.term
      case termT => exact h.termT
      case val => exact h.val
    · cases hs
  | complete =>
    simp only at hs
    split at hs
    · rename_i hc
      have hnr : s.refused = false := by
        cases hf : s.refused with
        | false => rfl
        | true => have := (h.ref hf).2.1; rw [hc.2.2] at this; cases this
      cases hs
      constructor <;> simp only
      case sum => exact h.sum
      case fin => intro _; exact ⟨hc.1, hc.2.1⟩
      case fresh => simp
      case ref => simp [hnr]
      case sigT => intro hf; have := h.sigT hf; simp [hc.2.2] at this; simp; omega
      case sigP => intro hf; have := h.sigP hf; simp [hc.2.2] at this; simp [this]
      case term => exact h.term
      case termT => simp [ht]
      case val => intro h1 h2; have := h.val h1 h2; simp [hc.2.2] at this; simp [this]
    · cases hs

theorem inv_reach (c : Cfg) (execs : List (Nat × Nat)) (s : St) (hr : Reach (init execs) (step c) s) : Inv c execs s :=
  Reach.inv (Inv c execs) (inv_init c execs) (fun s a s' hi he => inv_step c execs s a s' hi he) s hr

/-! ## What the back ends' `execute` calls cover -/

theorem covers_par (c : Cfg) (hp : c.par = true) (execs : List (Nat × Nat))
    (hs : c.kind = .unchunked → ∀ r ∈ execs, r.2 = r.1 + 1) (i : Nat) : covers c execs i = cover execs i := by
  induction execs with
  | nil => rfl
  | cons r rs ih =>
    have h1 := ih (fun hk x hx => hs hk x (by simp [hx]))
    simp only [covers, cover, h1]
    cases hk : c.kind with
    | chunked => simp [work, hk, hp, cover]
    | unchunked =>
      have := hs hk r (by simp)
      simp [work, hk, hp, cover, this]

theorem only_item (k : Kind) (execs : List (Nat × Nat)) (h : BackendOk k 1 execs) : execs = [(0, 1)] := by
  have hall : ∀ r ∈ execs, r = (0, 1) := by
    intro r hr
    have hne := h.nonempty r hr
    have hpos : ∀ i, r.1 ≤ i → i < r.2 → 0 < cover execs i := by
      intro i h1 h2
      obtain ⟨a, b, rfl⟩ := List.append_of_mem hr
      rw [cover_append]; simp only [cover, h1, h2, and_self, if_true]; omega
    have e0 : r.1 = 0 := by
      have a := hpos r.1 (Nat.le_refl _) hne
      have b := h.once r.1
      by_cases hz : r.1 < 1
      · omega
      · rw [if_neg hz] at b; omega
    have e1 : r.2 = 1 := by
      have a := hpos (r.2 - 1) (by omega) (by omega)
      have b := h.once (r.2 - 1)
      by_cases hz : r.2 - 1 < 1
      · omega
      · rw [if_neg hz] at b; omega
    exact Prod.ext e0 e1
  have h0 := h.once 0
  match execs, hall, h0 with
  | [], _, h0 => simp [cover] at h0
  | [r], hall, _ => rw [hall r (by simp)]
  | r :: r' :: rs, hall, h0 =>
    have a := hall r (by simp); have b := hall r' (by simp)
    subst a; subst b; simp [cover] at h0

theorem cover_singles (b m i : Nat) :
    cover ((List.range m).map (fun j => (b + j, b + j + 1))) i = if b ≤ i ∧ i < b + m then 1 else 0 := by
  induction m with
  | zero => simp [cover]
  | succ m ih =>
    rw [List.range_succ, List.map_append, cover_append, ih]
    simp only [List.map_cons, List.map_nil, cover]
    repeat' split
    all_goals omega

/-- One `execute` call of a sequential policy covers everything. -/
theorem cover_seq (c : Cfg) (hp : c.par = false) (i : Nat) : cover (work c (0, 1)) i = if i < c.n then 1 else 0 := by
  cases hk : c.kind with
  | chunked => simp [work, hk, hp, cover]
  | unchunked =>
    simp only [work, hk, hp, Bool.false_eq_true, if_false]
    rw [cover_singles]; simp

/-- What the operation invokes in all. -/
theorem total (c : Cfg) (execs : List (Nat × Nat)) (hb : BackendOk c.kind (items c) execs) (hf : c.front = .par ∨ c.par = true)
    (i : Nat) : covers c execs i = if i < c.n then 1 else 0 := by
  cases hp : c.par with
  | true =>
    have hi : items c = c.n := by cases hc : c.front <;> simp [items, hc, hp]
    rw [covers_par c hp execs hb.single i, hb.once i, hi]
  | false =>
    have hfp : c.front = .par := by rcases hf with hf | hf <;> simp_all
    have hi : items c = 1 := by simp [items, hfp, hp]
    rw [hi] at hb
    rw [only_item _ _ hb]
    simp only [covers, Nat.add_zero]
    exact cover_seq c hp i

end Verif.ParSched
