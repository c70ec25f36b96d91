import Verif.AnyBox.Step
/-!
# C52: a type-erased value behaves like a variable, and nothing is leaked or destroyed twice
-/
namespace Verif.AnyBox
set_option maxHeartbeats 1000000

structure PInv (p : P) (s : St) : Prop where
  good : Good p s
  t0 : seen s 0 = none
  t1 : seen s 1 = none

theorem inv_init (p : P) : PInv p init := by
  refine ⟨⟨?_, ?_⟩, rfl, rfl⟩
  · constructor <;> simp [init]
  · intro k c o h; simp [init] at h

theorem live_seen {s : St} {i : Nat} (h : live s i = true) : 2 ≤ i ∧ ∃ f v, seen s i = some (f, v) := by
  unfold live at h
  simp at h
  refine ⟨h.1, ?_⟩
  obtain ⟨c, hc⟩ := Option.isSome_iff_exists.1 h.2
  exact ⟨_, _, by unfold seen; rw [hc]; rfl⟩

theorem fresh_seen {s : St} {i : Nat} (h : fresh s i = true) : 2 ≤ i ∧ seen s i = none := by
  unfold fresh at h
  simp at h
  exact ⟨h.1, seen_none h.2⟩

theorem get_eq {s : St} {i f : Nat} {v : Option (Nat × Nat)} (h : seen s i = some (f, v)) :
    (seen s).get i = v := by simp [Vars.get, h]

theorem iface_eq {s : St} {i f : Nat} {v : Option (Nat × Nat)} (h : seen s i = some (f, v)) :
    (seen s).iface i = f := by simp [Vars.iface, h]

/-- Every operation does to what is seen exactly what the specification says. -/
theorem step_refines {p : P} (hp : SmallNoThrow p) {s s' : St} {op : Op} {t : Bool} (h : PInv p s)
    (hs : stepOp p s op = some (s', t)) : PInv p s' ∧ seen s' = specOp (seen s) op t := by
  have fin : ∀ {x : St}, Good p x → (A : seen x = specOp (seen s) op t) →
      specOp (seen s) op t 0 = none → specOp (seen s) op t 1 = none →
      PInv p x ∧ seen x = specOp (seen s) op t :=
    fun g A h0 h1 => ⟨⟨g, by rw [A]; exact h0, by rw [A]; exact h1⟩, A⟩
  have a0 := h.t0
  have a1 := h.t1
  cases op with
  | new i f =>
    simp only [stepOp] at hs
    split at hs
    case isFalse => cases hs
    rename_i hf; obtain ⟨h2, hi⟩ := fresh_seen hf
    cases hs
    have r := defaultCtor_seen h.good f hi
    refine fin r.1 r.2 ?_ ?_ <;> simp only [specOp, Vars.new] <;> grind
  | val i f ty v e =>
    simp only [stepOp] at hs
    split at hs
    case isFalse => cases hs
    rename_i hf; obtain ⟨h2, hi⟩ := fresh_seen hf
    have r := valueCtor_seen hp h.good (f := f) (ty := ty) (val := v) e hi
    simp only [Option.some.injEq] at hs; rw [hs] at r
    cases t with
    | true => exact fin r.good (by simpa [specOp] using r.thr rfl) (by simpa [specOp]) (by simpa [specOp])
    | false =>
      refine fin r.good (by simpa [specOp] using r.ok rfl) ?_ ?_ <;>
        simp only [specOp, Vars.new, Bool.false_eq_true, if_false] <;> grind
  | move i j =>
    simp only [stepOp] at hs
    split at hs
    case isFalse => cases hs
    rename_i hf; simp only [Bool.and_eq_true] at hf
    obtain ⟨h2, hi⟩ := fresh_seen hf.1
    obtain ⟨h3, f, v, hj⟩ := live_seen hf.2
    cases hs
    have r := moveCtor_seen hp h.good hi hj
    refine fin r.1 (by rw [r.2]; simp [specOp, iface_eq hj, get_eq hj]) ?_ ?_ <;>
      simp only [specOp, Vars.new, Vars.set] <;> grind
  | copy i j e =>
    simp only [stepOp] at hs
    split at hs
    case isFalse => cases hs
    rename_i hf; simp only [Bool.and_eq_true] at hf
    obtain ⟨h2, hi⟩ := fresh_seen hf.1
    obtain ⟨h3, f, v, hj⟩ := live_seen hf.2
    have r := copyCtor_seen hp h.good e hi hj
    simp only [Option.some.injEq] at hs; rw [hs] at r
    cases t with
    | true => exact fin r.good (by simpa [specOp] using r.thr rfl) (by simpa [specOp]) (by simpa [specOp])
    | false =>
      refine fin r.good (by simpa [specOp, iface_eq hj, get_eq hj] using r.ok rfl) ?_ ?_ <;>
        simp only [specOp, Vars.new, Bool.false_eq_true, if_false] <;> grind
  | conv i f j e =>
    simp only [stepOp] at hs
    split at hs
    case isFalse => cases hs
    rename_i hf; simp only [Bool.and_eq_true] at hf
    obtain ⟨h2, hi⟩ := fresh_seen hf.1.1
    obtain ⟨h3, fj, v, hj⟩ := live_seen hf.1.2
    have r := convCtor_seen hp h.good (f := f) e hi hj a0 (by omega)
    simp only [Option.some.injEq] at hs; rw [hs] at r
    cases t with
    | true =>
      refine fin r.good (by simpa [specOp] using r.thr rfl) ?_ ?_ <;>
        simp only [specOp, Vars.set, if_true] <;> grind
    | false =>
      refine fin r.good (by simpa [specOp, get_eq hj] using r.ok rfl) ?_ ?_ <;>
        simp only [specOp, Vars.new, Vars.set, Bool.false_eq_true, if_false] <;> grind
  | del i =>
    simp only [stepOp] at hs
    split at hs
    case isFalse => cases hs
    rename_i hf; obtain ⟨h2, f, v, hi⟩ := live_seen hf
    cases hs
    have r := dtor_seen h.good hi
    refine fin r.1 (by rw [r.2]; rfl) ?_ ?_ <;> simp only [specOp] <;> grind
  | reset i =>
    simp only [stepOp] at hs
    split at hs
    case isFalse => cases hs
    rename_i hf; obtain ⟨h2, f, v, hi⟩ := live_seen hf
    cases hs
    have r := reset_seen h.good.inv hi
    refine fin ⟨r.1, by simpa using r.2.2 none h.good.nm⟩ (by rw [r.2.1]; rfl) ?_ ?_ <;>
      simp only [specOp, Vars.set] <;> grind
  | emplace i ty v e =>
    simp only [stepOp] at hs
    split at hs
    case isFalse => cases hs
    rename_i hf; obtain ⟨h2, f, v0, hi⟩ := live_seen hf
    have r := emplace_seen hp h.good (ty := ty) (val := v) e hi
    simp only [Option.some.injEq] at hs; rw [hs] at r
    cases t with
    | true =>
      refine fin r.good (by simpa [specOp] using r.thr rfl) ?_ ?_ <;> simp only [specOp, Vars.set] <;> grind
    | false =>
      refine fin r.good (by simpa [specOp] using r.ok rfl) ?_ ?_ <;> simp only [specOp, Vars.set] <;> grind
  | massign i j =>
    simp only [stepOp] at hs
    split at hs
    case isFalse => cases hs
    rename_i hf; simp only [Bool.and_eq_true] at hf
    obtain ⟨h2, fi, vi, hi⟩ := live_seen hf.1.1
    obtain ⟨h3, fj, vj, hj⟩ := live_seen hf.1.2
    have hff := hf.2; rw [iface_seen hi, iface_seen hj] at hff; simp only [beq_iff_eq] at hff; subst hff
    cases hs
    have r := moveAssign_seen hp h.good hi hj
    refine fin r.1 (by rw [r.2]; simp [specOp, get_eq hj]) ?_ ?_ <;>
      simp only [specOp] <;> split <;> (try simp only [Vars.set]) <;> grind
  | cassign i j e =>
    simp only [stepOp] at hs
    split at hs
    case isFalse => cases hs
    rename_i hf; simp only [Bool.and_eq_true] at hf
    obtain ⟨h2, fi, vi, hi⟩ := live_seen hf.1.1
    obtain ⟨h3, fj, vj, hj⟩ := live_seen hf.1.2
    have hff := hf.2; rw [iface_seen hi, iface_seen hj] at hff; simp only [beq_iff_eq] at hff; subst hff
    have r := copyAssign_seen hp h.good e hi hj a0 a1
    simp only [Option.some.injEq] at hs; rw [hs] at r
    cases t with
    | true => exact fin r.good (by simpa [specOp] using r.thr rfl) (by simpa [specOp]) (by simpa [specOp])
    | false =>
      refine fin r.good (by simpa [specOp, get_eq hj] using r.ok rfl) ?_ ?_ <;>
        simp only [specOp, Vars.set, Bool.false_eq_true, if_false] <;> grind
  | vassign i j e =>
    simp only [stepOp] at hs
    split at hs
    case isFalse => cases hs
    rename_i hf; simp only [Bool.and_eq_true] at hf
    obtain ⟨h2, fi, vi, hi⟩ := live_seen hf.1.1
    obtain ⟨h3, fj, vj, hj⟩ := live_seen hf.1.2
    have hij : i ≠ j := by intro he; subst he; simp at hf
    have r := convAssign_seen hp h.good e hij hi hj a0
    simp only [Option.some.injEq] at hs; rw [hs] at r
    cases t with
    | true =>
      refine fin r.good (by simpa [specOp] using r.thr rfl) ?_ ?_ <;> simp only [specOp, Vars.set] <;> grind
    | false =>
      refine fin r.good (by simpa [specOp, get_eq hj] using r.ok rfl) ?_ ?_ <;>
        simp only [specOp, Vars.set] <;> grind
  | swap i j =>
    simp only [stepOp] at hs
    split at hs
    case isFalse => cases hs
    rename_i hf; simp only [Bool.and_eq_true] at hf
    obtain ⟨h2, fi, vi, hi⟩ := live_seen hf.1.1
    obtain ⟨h3, fj, vj, hj⟩ := live_seen hf.1.2
    have hff := hf.2; rw [iface_seen hi, iface_seen hj] at hff; simp only [beq_iff_eq] at hff; subst hff
    cases hs
    have r := swap_seen hp h.good hi hj a1
    refine fin r.1 (by rw [r.2]; simp [specOp, get_eq hi, get_eq hj]) ?_ ?_ <;>
      simp only [specOp, Vars.set] <;> grind

theorem run_refines {p : P} (hp : SmallNoThrow p) : ∀ (ops : List Op) (s s' : St) (ts : List Bool),
    PInv p s → run p s ops = some (s', ts) → PInv p s' ∧ seen s' = specRun (seen s) ops ts
  | [], s, s', ts, h, hr => by simp [run] at hr; obtain ⟨rfl, rfl⟩ := hr; exact ⟨h, rfl⟩
  | op :: ops, s, s', ts, h, hr => by
    rw [run] at hr
    cases h1 : stepOp p s op with
    | none => rw [h1] at hr; cases hr
    | some r =>
      obtain ⟨s1, t⟩ := r
      rw [h1] at hr
      simp only at hr
      cases h2 : run p s1 ops with
      | none => rw [h2] at hr; cases hr
      | some r2 =>
        obtain ⟨s2, ts2⟩ := r2
        rw [h2] at hr
        cases hr
        have a := step_refines hp h h1
        have b := run_refines hp ops s1 s' ts2 a.1 h2
        exact ⟨b.1, by rw [b.2, a.2]; rfl⟩

/-- **C52** (values).  However a program creates, copies, moves, converts, assigns, swaps, emplaces,
resets and destroys its type-erased values, and whichever allocations and constructors throw: what it
sees in them is what the value-semantics specification says (a failed copy-assignment leaves the target
unchanged, a failed `emplace` leaves it empty), emptiness is reported correctly, and no destructor runs
on anything but a live object and no dead or moved-from value is read.

Partial: `SmallNoThrow` -- no constructor of a type small enough for the buffer throws.
Without it the claim is false: `throwing_small_ctor_breaks`. -/
theorem any_values_partial {p : P} (hp : SmallNoThrow p) {ops : List Op} {s : St} {ts : List Bool}
    (hr : run p init ops = some (s, ts)) :
    seen s = specRun (fun _ => none) ops ts ∧ s.bad = false ∧
    (∀ i f v, specRun (fun _ => none) ops ts i = some (f, v) → empty s i = v.isNone) := by
  have h := run_refines hp ops init s ts (inv_init p) hr
  have hsn : seen s = specRun (fun _ => none) ops ts := h.2
  refine ⟨hsn, h.1.good.inv.bad, ?_⟩
  intro i f v hv
  rw [← hsn] at hv
  cases v with
  | none => unfold empty; rw [word_null h.1.good.inv hv]; rfl
  | some v =>
    obtain ⟨c, o, hc, _, ho, _⟩ := seen_full hv
    unfold empty
    rw [word_some hc]
    cases hw : c.word <;> rw [hw] at ho <;> simp [objOf] at ho ⊢
    all_goals rfl

/-- **C52** (lifetimes).  At every moment each value object ever constructed has been destroyed at most
once and each heap block freed at most once; an object that has not been destroyed is held by exactly
one variable, and a block that has not been freed belongs to exactly one variable; so when the last
variable is gone every object has been destroyed exactly once and every block freed exactly once. -/
theorem any_lifetimes_partial {p : P} (hp : SmallNoThrow p) {ops : List Op} {s : St} {ts : List Bool}
    (hr : run p init ops = some (s, ts)) :
    (∀ o, (s.obj o).dead ≤ 1) ∧ (∀ b, s.freed b ≤ 1) ∧
    (∀ o, o < s.nobj → (s.obj o).dead = 0 →
      ∃ i, objOf (word s i) = some o ∧ ∀ j, objOf (word s j) = some o → j = i) ∧
    (∀ b, b < s.nblk → s.freed b = 0 →
      ∃ i o, word s i = .heap b o ∧ ∀ j o', word s j = .heap b o' → j = i) ∧
    ((∀ i, s.cell i = none) →
      (∀ o, o < s.nobj → (s.obj o).dead = 1) ∧ ∀ b, b < s.nblk → s.freed b = 1) := by
  have h := (run_refines hp ops init s ts (inv_init p) hr).1.good.inv
  have hw : ∀ j w, word s j = w → w ≠ .null → ∃ c, s.cell j = some c ∧ c.word = w := by
    intro j w hj hn
    unfold word at hj
    cases hc : s.cell j with
    | none => rw [hc] at hj; exact absurd hj.symm hn
    | some c => rw [hc] at hj; exact ⟨c, rfl, hj⟩
  refine ⟨h.dead1, h.freed1, ?_, ?_, ?_⟩
  · intro o ho hd
    obtain ⟨i, c, hc, hoc⟩ := h.owned o ho hd
    refine ⟨i, by rw [word_some hc]; exact hoc, ?_⟩
    intro j hj
    obtain ⟨c', hc', hw'⟩ := hw j _ rfl (by intro h0; rw [h0] at hj; simp [objOf] at hj)
    exact h.uniq j i c' c o hc' hc (by rw [hw']; exact hj) hoc
  · intro b hb hf
    obtain ⟨i, c, o, hc, hoc⟩ := h.ownedB b hb hf
    refine ⟨i, o, by rw [word_some hc]; exact hoc, ?_⟩
    intro j o' hj
    obtain ⟨c', hc', hw'⟩ := hw j _ hj (by simp)
    exact h.uniqB j i c' c b o' o hc' hc hw' hoc
  · intro hall
    constructor
    · intro o ho
      have := h.dead1 o
      by_cases hd : (s.obj o).dead = 0
      · obtain ⟨i, c, hc, _⟩ := h.owned o ho hd; rw [hall] at hc; cases hc
      · omega
    · intro b hb
      have := h.freed1 b
      by_cases hd : s.freed b = 0
      · obtain ⟨i, c, _, hc, _⟩ := h.ownedB b hb hd; rw [hall] at hc; cases hc
      · omega

/-! ### Concrete programs -/

/-- Types: 0 small, 1 too big for any buffer (its constructor may throw), 2 fits only the large buffer
of interface 1, 3 small with a throwing constructor, 4 small but over-aligned. -/
def exP (smallThrows : Bool) : P :=
  { size := fun t => if t = 1 then 100 else if t = 2 then 48 else 16
    align := fun t => if t = 4 then 16 else 8
    nothrowMove := fun t => t != 1
    mayThrow := fun t => t == 1 || (smallThrows && t == 3)
    bufSize := fun f => if f = 0 then 32 else 64
    bufAlign := fun _ => 8
    ptrConv := fun _ _ => false }

def no : Orc := ⟨false, false⟩

theorem exP_small : SmallNoThrow (exP false) := by
  intro ty f h
  have h1 : ty ≠ 1 := by
    rintro rfl
    simp [small, exP] at h
  simp [exP, h1]

/-- A program exercising small and big values, copies, swaps, a throwing copy and slicing. -/
def exOps : List Op :=
  [.val 2 0 0 7 no, .val 3 0 1 8 no, .swap 2 3, .copy 4 2 no, .copy 5 2 ⟨false, true⟩, .new 6 0,
   .cassign 6 3 no, .massign 6 4, .val 7 1 2 9 no, .conv 8 0 7 no]

example : ((run (exP false) init exOps).map
    (fun r => (r.2, (seen r.1 2), (seen r.1 3), seen r.1 6, seen r.1 8))) =
    some ([false, false, false, false, true, false, false, false, false, false],
      some (0, some (1, 8)), some (0, some (0, 7)), some (0, some (1, 8)), some (0, some (2, 9))) := by
  rfl

/-- After destroying every variable nothing is left. -/
example : ((run (exP false) init
    (exOps ++ [.emplace 6 0 1 no, .del 2, .del 3, .del 4, .del 6, .del 7, .del 8])).map
    (fun r => (r.1.nobj, r.1.nblk, (List.range r.1.nobj).map (fun o => (r.1.obj o).dead),
      (List.range r.1.nblk).map r.1.freed))) =
    some (11, 4, [1, 1, 1, 1, 1, 1, 1, 1, 1, 1, 1], [1, 1, 1, 1]) := by
  decide

/-- **C52 fails in full** (divergence 23): `a.emplace<T>()` whose constructor throws, with `T` small:
the variable is neither empty nor does it hold a value, and destroying it runs a destructor on an object
that was never constructed. -/
theorem throwing_small_ctor_breaks :
    ∃ (p : P) (s s' : St),
      run p init [.new 2 0, .emplace 2 3 5 ⟨false, true⟩] = some (s, [false, true]) ∧
      empty s 2 = false ∧ s.bad = false ∧
      run p s [.del 2] = some (s', [false]) ∧ s'.bad = true := by
  refine ⟨exP true, _, _, rfl, by decide, by decide, rfl, by decide⟩

/-- The same when *copying* a small value whose copy constructor throws: the destructor of the object
under construction destroys garbage. -/
theorem throwing_small_copy_breaks :
    ∃ (p : P) (s : St),
      run p init [.val 2 0 3 5 no, .copy 3 2 ⟨false, true⟩] = some (s, [false, true]) ∧ s.bad = true := by
  exact ⟨exP true, _, rfl, by decide⟩

/-! ### Alignment and `noexcept` conversions -/

theorem setWord_mt (s : St) (i : Nat) (w : Word) :
    (setWord s i w).misaligned = s.misaligned ∧ (setWord s i w).terminated = s.terminated := by
  unfold setWord; split <;> exact ⟨rfl, rfl⟩

theorem reset_mt (s : St) (i : Nat) :
    (reset s i).misaligned = s.misaligned ∧ (reset s i).terminated = s.terminated := by
  unfold reset; split <;> simp [setWord_mt, destroy, free]

/-- Every type that fits a buffer can be placed in it. -/
def SmallAligned (p : P) : Prop := ∀ ty f, small p ty f = true → p.align ty ∣ p.bufAlign f

theorem emplaceInto_mt {p : P} (ha : SmallAligned p) (s : St) (i ty val : Nat) (e : Orc) :
    (emplaceInto p s i ty val e).1.misaligned = s.misaligned ∧
    (emplaceInto p s i ty val e).1.terminated = s.terminated := by
  unfold emplaceInto
  split
  · rename_i hs
    have := ha _ _ hs
    split <;> simp [setWord_mt, this, build]
  · split
    · exact ⟨rfl, rfl⟩
    · split <;> simp [setWord_mt, build, free]

theorem emplaceInto_t {p : P} (s : St) (i ty val : Nat) (e : Orc) :
    (emplaceInto p s i ty val e).1.terminated = s.terminated := by
  unfold emplaceInto
  split
  · split <;> simp [setWord_mt, build]
  · split
    · rfl
    · split <;> simp [setWord_mt, build, free]

theorem mte_mt {p : P} (ha : SmallAligned p) (s : St) (i j : Nat) :
    (moveToEmpty p s i j).misaligned = s.misaligned := by
  unfold moveToEmpty
  split <;> simp [setWord_mt, reset_mt, (emplaceInto_mt ha _ _ _ _ _).1, markMoved, touch]

theorem mte_t {p : P} (s : St) (i j : Nat) :
    (moveToEmpty p s i j).terminated = s.terminated := by
  unfold moveToEmpty
  split <;> simp [setWord_mt, reset_mt, emplaceInto_t, markMoved, touch]

theorem swapNT_mt {p : P} (ha : SmallAligned p) (s : St) (i j : Nat) :
    (swapNT p s i j).misaligned = s.misaligned := by
  unfold swapNT
  split
  · rfl
  · split <;> simp [setWord_mt, mte_mt ha]

theorem swapNT_t {p : P} (s : St) (i j : Nat) : (swapNT p s i j).terminated = s.terminated := by
  unfold swapNT
  split
  · rfl
  · split <;> simp [setWord_mt, mte_t]

theorem dtor_mt (s : St) (i : Nat) :
    (dtor s i).misaligned = s.misaligned ∧ (dtor s i).terminated = s.terminated := by
  unfold dtor; exact reset_mt s i

theorem moveCtor_mt {p : P} (ha : SmallAligned p) (s : St) (i j : Nat) :
    (moveCtor p s i j).misaligned = s.misaligned := by
  unfold moveCtor; rw [swapNT_mt ha]; rfl

theorem moveCtor_t {p : P} (s : St) (i j : Nat) : (moveCtor p s i j).terminated = s.terminated := by
  unfold moveCtor; rw [swapNT_t]; rfl

theorem swap_mt {p : P} (ha : SmallAligned p) (s : St) (i j : Nat) :
    (swap p s i j).misaligned = s.misaligned := by
  unfold swap
  split
  · rfl
  · split
    · exact swapNT_mt ha s i j
    · rw [(dtor_mt _ _).1, mte_mt ha, mte_mt ha, moveCtor_mt ha]

theorem swap_t {p : P} (s : St) (i j : Nat) : (swap p s i j).terminated = s.terminated := by
  unfold swap
  split
  · rfl
  · split
    · exact swapNT_t s i j
    · rw [(dtor_mt _ _).2, mte_t, mte_t, moveCtor_t]

theorem copyCtor_mt {p : P} (ha : SmallAligned p) (s : St) (i j : Nat) (e : Orc) :
    (copyCtor p s i j e).1.misaligned = s.misaligned := by
  unfold copyCtor
  split
  · split <;> rfl
  · simp only
    split
    · rw [(dtor_mt _ _).1, (emplaceInto_mt ha _ _ _ _ _).1]; rfl
    · rw [(emplaceInto_mt ha _ _ _ _ _).1]; rfl

theorem copyCtor_t {p : P} (s : St) (i j : Nat) (e : Orc) :
    (copyCtor p s i j e).1.terminated = s.terminated := by
  unfold copyCtor
  split
  · split <;> rfl
  · simp only
    split
    · rw [(dtor_mt _ _).2, emplaceInto_t]; rfl
    · rw [emplaceInto_t]; rfl

theorem sliceTo_mt {p : P} (ha : SmallAligned p) (s : St) (i j : Nat) (e : Orc) :
    (sliceTo p s i j e).1.misaligned = s.misaligned := by
  unfold sliceTo
  split
  · rfl
  · rename_i o _
    simp only [emplace]
    generalize (⟨e.alloc, e.ctor && !p.nothrowMove (s.obj o).ty⟩ : Orc) = e'
    have hr : (emplaceInto p (reset (touch s o) i) i (s.obj o).ty (s.obj o).val e').1.misaligned =
        s.misaligned := by rw [(emplaceInto_mt ha _ _ _ _ _).1, (reset_mt _ _).1]; rfl
    by_cases hb : (emplaceInto p (reset (touch s o) i) i (s.obj o).ty (s.obj o).val e').2 = true
    · simp only [hb, if_true]; exact hr
    · simp only [hb, if_false, Bool.false_eq_true]; rw [(reset_mt _ _).1]; exact hr

theorem sliceTo_t {p : P} (s : St) (i j : Nat) (e : Orc) :
    (sliceTo p s i j e).1.terminated = s.terminated := by
  unfold sliceTo
  split
  · rfl
  · rename_i o _
    simp only [emplace]
    generalize (⟨e.alloc, e.ctor && !p.nothrowMove (s.obj o).ty⟩ : Orc) = e'
    have hr : (emplaceInto p (reset (touch s o) i) i (s.obj o).ty (s.obj o).val e').1.terminated =
        s.terminated := by rw [emplaceInto_t, (reset_mt _ _).2]; rfl
    by_cases hb : (emplaceInto p (reset (touch s o) i) i (s.obj o).ty (s.obj o).val e').2 = true
    · simp only [hb, if_true]; exact hr
    · simp only [hb, if_false, Bool.false_eq_true]; rw [(reset_mt _ _).2]; exact hr

theorem assignFrom_mt {p : P} (ha : SmallAligned p) (s : St) (i j : Nat) (e : Orc) :
    (assignFrom p s i j e).1.misaligned = s.misaligned := by
  unfold assignFrom
  split
  · rfl
  · split
    · simp [setWord_mt]
    · exact sliceTo_mt ha s i j e
  · exact sliceTo_mt ha s i j e

theorem assignFrom_t {p : P} (s : St) (i j : Nat) (e : Orc) :
    (assignFrom p s i j e).1.terminated = s.terminated := by
  unfold assignFrom
  split
  · rfl
  · split
    · simp [setWord_mt]
    · exact sliceTo_t s i j e
  · exact sliceTo_t s i j e

theorem noexceptIf_m (b : Bool) (r : St × Bool) : (noexceptIf b r).1.misaligned = r.1.misaligned := by
  unfold noexceptIf; split <;> rfl

theorem stepOp_m {p : P} (ha : SmallAligned p) {s s' : St} {op : Op} {t : Bool}
    (hs : stepOp p s op = some (s', t)) : s'.misaligned = s.misaligned := by
  cases op <;> simp only [stepOp] at hs <;> split at hs <;> first | (cases hs; done) | skip
  all_goals simp only [Option.some.injEq] at hs
  case new => cases hs; rfl
  case val =>
    rw [← show (_ : St × Bool).1 = s' from congrArg Prod.fst hs]
    unfold valueCtor; simp only
    split
    · rw [(dtor_mt _ _).1, (emplaceInto_mt ha _ _ _ _ _).1]; rfl
    · rw [(emplaceInto_mt ha _ _ _ _ _).1]; rfl
  case move => cases hs; exact moveCtor_mt ha s _ _
  case copy =>
    rw [← show (_ : St × Bool).1 = s' from congrArg Prod.fst hs]; exact copyCtor_mt ha s _ _ _
  case conv =>
    rw [← show (_ : St × Bool).1 = s' from congrArg Prod.fst hs]
    unfold convCtor; simp only
    split
    · rw [(dtor_mt _ _).1, (dtor_mt _ _).1, noexceptIf_m, assignFrom_mt ha]
      show (moveCtor p s 0 _).misaligned = _
      exact moveCtor_mt ha s _ _
    · rw [(dtor_mt _ _).1, noexceptIf_m, assignFrom_mt ha]
      show (moveCtor p s 0 _).misaligned = _
      exact moveCtor_mt ha s _ _
  case del => cases hs; exact (dtor_mt s _).1
  case reset => cases hs; exact (reset_mt s _).1
  case emplace =>
    rw [← show (_ : St × Bool).1 = s' from congrArg Prod.fst hs]
    unfold AnyBox.emplace
    rw [(emplaceInto_mt ha _ _ _ _ _).1, (reset_mt _ _).1]
  case massign =>
    cases hs
    unfold moveAssign
    split
    · rfl
    · rw [swapNT_mt ha, (reset_mt _ _).1]
  case cassign =>
    rw [← show (_ : St × Bool).1 = s' from congrArg Prod.fst hs]
    unfold copyAssign
    split
    · rfl
    · simp only
      split
      · exact copyCtor_mt ha s _ _ _
      · rw [(dtor_mt _ _).1, swap_mt ha]; exact copyCtor_mt ha s _ _ _
  case vassign =>
    rw [← show (_ : St × Bool).1 = s' from congrArg Prod.fst hs]
    unfold convAssign; simp only
    rw [(dtor_mt _ _).1, noexceptIf_m, assignFrom_mt ha, (reset_mt _ _).1, moveCtor_mt ha]
  case swap => cases hs; exact swap_mt ha s _ _

/-- **C52** (alignment).  Every value lives at a properly aligned address.

Partial: `SmallAligned` -- every type that passes the size test can be aligned in the buffer.
The code does not check it: `overaligned_small_misplaced`. -/
theorem any_aligned_partial {p : P} (ha : SmallAligned p) :
    ∀ (ops : List Op) (s s' : St) (ts : List Bool), s.misaligned = false →
      run p s ops = some (s', ts) → s'.misaligned = false
  | [], s, s', ts, h, hr => by simp [run] at hr; obtain ⟨rfl, rfl⟩ := hr; exact h
  | op :: ops, s, s', ts, h, hr => by
    rw [run] at hr
    cases h1 : stepOp p s op with
    | none => rw [h1] at hr; cases hr
    | some r =>
      obtain ⟨s1, t⟩ := r
      rw [h1] at hr
      simp only at hr
      cases h2 : run p s1 ops with
      | none => rw [h2] at hr; cases hr
      | some r2 =>
        obtain ⟨s2, ts2⟩ := r2
        rw [h2] at hr
        cases hr
        exact any_aligned_partial ha ops s1 s' ts2 (by rw [stepOp_m ha h1]; exact h) h2

/-- **C52 fails in full** (divergence 24): `__is_small` does not look at the alignment. -/
theorem overaligned_small_misplaced :
    ∃ (p : P) (s : St), SmallNoThrow p ∧
      run p init [.val 2 0 4 5 no] = some (s, [false]) ∧ s.misaligned = true :=
  ⟨exP false, _, exP_small, rfl, by decide⟩

/-- A conversion marked `noexcept` that throws: impossible if every pair of interfaces is
pointer-convertible (single inheritance). -/
theorem assignFrom_nothrow {p : P} (hp : SmallNoThrow p) (hpc : ∀ f g, p.ptrConv f g = true) {s : St}
    (h : Good p s) {i j fi fj : Nat} {v : Option (Nat × Nat)} (e : Orc) (hi : seen s i = some (fi, none))
    (hj : seen s j = some (fj, v)) (hl : asLarge p fi fj = true) : (assignFrom p s i j e).2 = false := by
  unfold assignFrom
  cases v with
  | none => rw [word_null h.inv hj]
  | some v =>
    obtain ⟨c, o, hc, hf, ho, hv⟩ := seen_full hj
    rw [word_some hc]
    have hw0 := h.inv.word j c hc
    unfold okWord at hw0
    cases hw : c.word with
    | null => rfl
    | stale => rw [hw] at ho; simp [objOf] at ho
    | heap b o' => simp [hpc]
    | insitu o' =>
      rw [hw] at hw0 ho
      simp [objOf] at ho; subst ho
      simp only
      unfold sliceTo
      rw [word_some hc, hw]
      simp only [objOf]
      have hsm : small p (s.obj o').ty fi = true := by
        have := hw0.2.2.2
        rw [hf] at this
        unfold small at this ⊢
        unfold asLarge at hl
        simp only [Bool.and_eq_true, decide_eq_true_eq] at this hl ⊢
        exact ⟨by omega, this.2⟩
      have hem : ∀ x, (emplace p (touch s o') i (s.obj o').ty (s.obj o').val x).2 = false := by
        intro x
        unfold emplace
        have hre : reset (touch s o') i = touch s o' := by
          unfold reset
          have : word (touch s o') i = word s i := rfl
          rw [this, word_null h.inv hi]
        rw [hre]
        unfold emplaceInto
        have : ifaceOf (touch s o') i = fi := by
          have := iface_seen hi
          exact this
        rw [this, hp _ _ hsm]
        simp [hsm]
      rw [hem]
      rfl

theorem stepOp_t {p : P} (hp : SmallNoThrow p) (hpc : ∀ f g, p.ptrConv f g = true) {s s' : St} {op : Op}
    {t : Bool} (h : PInv p s) (hs : stepOp p s op = some (s', t)) : s'.terminated = s.terminated := by
  cases op <;> simp only [stepOp] at hs <;> split at hs <;> first | (cases hs; done) | skip
  all_goals simp only [Option.some.injEq] at hs
  case new => cases hs; rfl
  case val =>
    rw [← show (_ : St × Bool).1 = s' from congrArg Prod.fst hs]
    unfold valueCtor; simp only
    split
    · rw [(dtor_mt _ _).2, emplaceInto_t]; rfl
    · rw [emplaceInto_t]; rfl
  case move => cases hs; exact moveCtor_t s _ _
  case copy =>
    rw [← show (_ : St × Bool).1 = s' from congrArg Prod.fst hs]; exact copyCtor_t s _ _ _
  case conv i f j e hf =>
    simp only [Bool.and_eq_true] at hf
    obtain ⟨h2, hi⟩ := fresh_seen hf.1.1
    obtain ⟨h3, fj, v, hj⟩ := live_seen hf.1.2
    have hij : i ≠ j := by intro he; subst he; rw [hi] at hj; cases hj
    have hi0 : i ≠ 0 := by omega
    have h0i : ¬ 0 = i := by omega
    have h0j : ¬ 0 = j := by omega
    rw [← show (_ : St × Bool).1 = s' from congrArg Prod.fst hs]
    unfold convCtor; simp only
    have a := moveCtor_seen hp h.good h.t0 hj
    have b := defaultCtor_seen a.1 f (i := i) (by
      rw [a.2]; simp [Vars.set, Vars.new, hi0, hij, hi])
    have hne : (noexceptIf (asLarge p f (ifaceOf s j))
        (assignFrom p (defaultCtor (moveCtor p s 0 j) i f) i 0 e)) =
        assignFrom p (defaultCtor (moveCtor p s 0 j) i f) i 0 e := by
      unfold noexceptIf
      split
      · rename_i hb
        simp only [Bool.and_eq_true] at hb
        have := assignFrom_nothrow hp hpc b.1 (i := i) (j := 0) (fi := f) (fj := fj) (v := v) e
          (by rw [b.2]; simp [Vars.new])
          (by rw [b.2, a.2]; simp [Vars.new, Vars.set, h0i, h0j])
          (by rw [← iface_seen hj]; exact hb.1)
        rw [this] at hb; exact absurd hb.2 (by simp)
      · rfl
    rw [hne]
    have fin : (assignFrom p (defaultCtor (moveCtor p s 0 j) i f) i 0 e).1.terminated = s.terminated := by
      rw [assignFrom_t]; exact moveCtor_t s _ _
    split
    · rw [(dtor_mt _ _).2, (dtor_mt _ _).2]; exact fin
    · rw [(dtor_mt _ _).2]; exact fin
  case del => cases hs; exact (dtor_mt s _).2
  case reset => cases hs; exact (reset_mt s _).2
  case emplace =>
    rw [← show (_ : St × Bool).1 = s' from congrArg Prod.fst hs]
    unfold AnyBox.emplace
    rw [emplaceInto_t, (reset_mt _ _).2]
  case massign =>
    cases hs
    unfold moveAssign
    split
    · rfl
    · rw [swapNT_t, (reset_mt _ _).2]
  case cassign =>
    rw [← show (_ : St × Bool).1 = s' from congrArg Prod.fst hs]
    unfold copyAssign
    split
    · rfl
    · simp only
      split
      · exact copyCtor_t s _ _ _
      · rw [(dtor_mt _ _).2, swap_t]; exact copyCtor_t s _ _ _
  case vassign i j e hf =>
    simp only [Bool.and_eq_true] at hf
    obtain ⟨h2, fi, vi, hi⟩ := live_seen hf.1.1
    obtain ⟨h3, fj, v, hj⟩ := live_seen hf.1.2
    have hij : i ≠ j := by intro he; subst he; simp at hf
    have hi0 : i ≠ 0 := by omega
    have h0i : ¬ 0 = i := by omega
    have h0j : ¬ 0 = j := by omega
    rw [← show (_ : St × Bool).1 = s' from congrArg Prod.fst hs]
    unfold convAssign; simp only
    have a := moveCtor_seen hp h.good h.t0 hj
    have b := reset_seen a.1.inv (i := i) (f := fi) (v := vi)
      (by rw [a.2]; simp [Vars.set, Vars.new, hi0, hij, hi])
    have bn : NMx none (reset (moveCtor p s 0 j) i) := by simpa using b.2.2 none a.1.nm
    have hne : (noexceptIf (asLarge p (ifaceOf s i) (ifaceOf s j))
        (assignFrom p (AnyBox.reset (moveCtor p s 0 j) i) i 0 e)) =
        assignFrom p (AnyBox.reset (moveCtor p s 0 j) i) i 0 e := by
      unfold noexceptIf
      split
      · rename_i hb
        simp only [Bool.and_eq_true] at hb
        have := assignFrom_nothrow hp hpc ⟨b.1, bn⟩ (i := i) (j := 0) (fi := fi) (fj := fj) (v := v) e
          (by rw [b.2.1, a.2]; simp [Vars.new, Vars.set, hi0, hij, hi])
          (by rw [b.2.1, a.2]; simp [Vars.new, Vars.set, h0i, h0j])
          (by rw [← iface_seen hj, ← iface_seen hi]; exact hb.1)
        rw [this] at hb; exact absurd hb.2 (by simp)
      · rfl
    rw [hne, (dtor_mt _ _).2, assignFrom_t, (reset_mt _ _).2, moveCtor_t]
  case swap => cases hs; exact swap_t s _ _

/-- **C52** (`noexcept` conversions).  A conversion to a base interface that is declared `noexcept`
never throws (so the program is never terminated by one).

Partial: for interfaces whose vtables are pointer-convertible (single inheritance).
Otherwise a heap-allocated value has to be moved, which may allocate and throw:
`noexcept_conversion_terminates`. -/
theorem any_conversion_nothrow_partial {p : P} (hp : SmallNoThrow p) (hpc : ∀ f g, p.ptrConv f g = true) :
    ∀ (ops : List Op) (s s' : St) (ts : List Bool), PInv p s → s.terminated = false →
      run p s ops = some (s', ts) → s'.terminated = false
  | [], s, s', ts, _, h, hr => by simp [run] at hr; obtain ⟨rfl, rfl⟩ := hr; exact h
  | op :: ops, s, s', ts, hi, h, hr => by
    rw [run] at hr
    cases h1 : stepOp p s op with
    | none => rw [h1] at hr; cases hr
    | some r =>
      obtain ⟨s1, t⟩ := r
      rw [h1] at hr
      simp only at hr
      cases h2 : run p s1 ops with
      | none => rw [h2] at hr; cases hr
      | some r2 =>
        obtain ⟨s2, ts2⟩ := r2
        rw [h2] at hr
        cases hr
        exact any_conversion_nothrow_partial hp hpc ops s1 s' ts2 (step_refines hp hi h1).1
          (by rw [stepOp_t hp hpc hi h1]; exact h) h2

/-- **C52 fails in full** (divergence 25): converting a heap-allocated value to an equally large base
interface that is not the first in the inheritance chain is declared `noexcept` but may throw. -/
theorem noexcept_conversion_terminates :
    ∃ (p : P) (s : St), SmallNoThrow p ∧
      run p init [.val 2 0 1 5 no, .conv 3 1 2 ⟨true, false⟩] = some (s, [false, true]) ∧
      s.terminated = true :=
  ⟨exP false, _, exP_small, rfl, by decide⟩

/-- Programs meeting the hypotheses of the last two theorems, with an in-buffer value, a heap value, a
slice into a smaller buffer and a pointer conversion. -/
example : SmallAligned { exP false with align := fun _ => 8 } ∧
    ((run { exP false with align := fun _ => 8 } init exOps).map (·.1.misaligned)) = some false := by
  refine ⟨?_, rfl⟩
  intro ty f _
  show 8 ∣ 8
  decide

example : SmallNoThrow { exP false with ptrConv := fun _ _ => true } ∧
    ((run { exP false with ptrConv := fun _ _ => true } init
      [.val 2 0 1 5 no, .conv 3 1 2 ⟨true, true⟩, .val 4 0 0 6 no, .conv 5 1 4 ⟨true, true⟩]).map
        (fun r => (r.2, r.1.terminated, (seen r.1).get 3, (seen r.1).get 5))) =
      some ([false, false, false, false], false, some (1, 5), some (0, 6)) := by
  refine ⟨?_, rfl⟩
  intro ty f h
  exact exP_small ty f h

end Verif.AnyBox
