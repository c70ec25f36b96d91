import Verif.Xorshift.Model
/-!
# The pseudo random numbers of the thread pool: property C90
-/
namespace Verif.Xorshift

theorem shr_zero {k : Nat} (hk : 0 < k) {d : BitVec 64} (h : d = d >>> k) : d = 0#64 := by
  have key : ∀ n, ∀ i, 64 ≤ i + n → d.getLsbD i = false := by
    intro n
    induction n with
    | zero => intro i hi; exact BitVec.getLsbD_of_ge d i (by omega)
    | succ n ih =>
      intro i hi
      rw [h, BitVec.getLsbD_ushiftRight]
      exact ih (k + i) (by omega)
  apply BitVec.eq_of_getLsbD_eq
  intro i hi
  rw [key 64 i (by omega)]; simp

theorem shl_zero {k : Nat} (hk : 0 < k) {d : BitVec 64} (h : d = d <<< k) : d = 0#64 := by
  have key : ∀ n, ∀ i, i < n → d.getLsbD i = false := by
    intro n
    induction n with
    | zero => intro i hi; omega
    | succ n ih =>
      intro i hi
      rw [h, BitVec.getLsbD_shiftLeft]
      by_cases hik : i < k
      · simp [hik]
      · rw [ih (i - k) (by omega)]; simp
  apply BitVec.eq_of_getLsbD_eq
  intro i hi
  rw [key 64 i hi]; simp

theorem xor_eq_zero {x y : BitVec 64} (h : x ^^^ y = 0#64) : x = y := by
  have : x ^^^ y ^^^ y = 0#64 ^^^ y := by rw [h]
  simpa [BitVec.xor_assoc] using this

theorem shr_inj {k : Nat} (hk : 0 < k) {x y : BitVec 64} (h : x ^^^ (x >>> k) = y ^^^ (y >>> k)) : x = y := by
  apply xor_eq_zero
  apply shr_zero hk
  apply BitVec.eq_of_getLsbD_eq
  intro i hi
  have := congrArg (fun v => v.getLsbD i) h
  simp only [BitVec.getLsbD_xor, BitVec.getLsbD_ushiftRight] at this ⊢
  revert this
  cases x.getLsbD i <;> cases y.getLsbD i <;> cases x.getLsbD (k + i) <;> cases y.getLsbD (k + i) <;> simp

theorem shl_inj {k : Nat} (hk : 0 < k) {x y : BitVec 64} (h : x ^^^ (x <<< k) = y ^^^ (y <<< k)) : x = y := by
  apply xor_eq_zero
  apply shl_zero hk
  apply BitVec.eq_of_getLsbD_eq
  intro i hi
  have := congrArg (fun v => v.getLsbD i) h
  simp only [BitVec.getLsbD_xor, BitVec.getLsbD_shiftLeft, hi, decide_true, Bool.true_and] at this ⊢
  revert this
  cases x.getLsbD i <;> cases y.getLsbD i <;> cases x.getLsbD (i - k) <;> cases y.getLsbD (i - k) <;>
    cases decide (i < k) <;> simp

/-- **C90**: no state is reached from two different states: the generator does not lose entropy. -/
theorem C90_injective {s t : BitVec 64} (h : next s = next t) : s = t :=
  shr_inj (by decide) (shl_inj (by decide) (shr_inj (by decide) h))

/-- **C90**: a generator that is not in the state 0 never gets there, whatever it has been used for. -/
theorem C90_never_zero {s : BitVec 64} (h : s ≠ 0#64) (n : Nat) : discard n s ≠ 0#64 := by
  induction n generalizing s with
  | zero => exact h
  | succ n ih =>
    refine ih ?_
    intro h0
    exact h (C90_injective (h0.trans (by decide)))

theorem discard_add (m n : Nat) (s : BitVec 64) : discard (m + n) s = discard n (discard m s) := by
  induction m generalizing s with
  | zero => simp [discard]
  | succ m ih => rw [Nat.succ_add]; exact ih (next s)

/-- **C90**: `discard(n)` is the same as `n` calls: call number `i` after it returns what call number `n + i` would have. -/
theorem C90_discard (s : BitVec 64) (n i : Nat) : nth (discard n s) i = nth s (n + i) := by
  rw [nth, nth, discard_add]

theorem discard_inj {n : Nat} {s t : BitVec 64} (h : discard n s = discard n t) : s = t := by
  induction n generalizing s t with
  | zero => exact h
  | succ n ih => exact C90_injective (ih h)

/-- A function from the numbers below `n + 1` to those below `n` takes some value twice. -/
theorem pigeon : ∀ (n : Nat) (f : Nat → Nat), (∀ i, i < n + 1 → f i < n) → ∃ i j, i < j ∧ j < n + 1 ∧ f i = f j := by
  intro n
  induction n with
  | zero => intro f h; exact absurd (h 0 (by omega)) (by omega)
  | succ n ih =>
    intro f h
    by_cases hex : ∃ i, i < n + 1 ∧ f i = f (n + 1)
    · obtain ⟨i, hi, he⟩ := hex; exact ⟨i, n + 1, hi, by omega, he⟩
    · -- rename the value `n` to the value of the last argument
      have hg : ∀ i, i < n + 1 → (if f i = n then f (n + 1) else f i) < n := by
        intro i hi
        have h1 := h i (by omega)
        have h2 := h (n + 1) (by omega)
        have h3 : f i ≠ f (n + 1) := fun he => hex ⟨i, hi, he⟩
        by_cases hn : f i = n
        · rw [if_pos hn]; omega
        · rw [if_neg hn]; omega
      obtain ⟨i, j, hij, hj, he⟩ := ih (fun i => if f i = n then f (n + 1) else f i) hg
      refine ⟨i, j, hij, by omega, ?_⟩
      have h3 : f i ≠ f (n + 1) := fun he => hex ⟨i, by omega, he⟩
      have h4 : f j ≠ f (n + 1) := fun he => hex ⟨j, hj, he⟩
      by_cases a : f i = n <;> by_cases b : f j = n
      · omega
      · rw [if_pos a, if_neg b] at he; exact absurd he.symm h4
      · rw [if_neg a, if_pos b] at he; exact absurd he h3
      · rw [if_neg a, if_neg b] at he; exact he

/-- **C90**: the generator is purely periodic: every state comes back, after at most 2^64 calls. -/
theorem C90_periodic (s : BitVec 64) : ∃ p, 0 < p ∧ p ≤ 2 ^ 64 ∧ discard p s = s := by
  obtain ⟨i, j, hij, hj, he⟩ := pigeon (2 ^ 64) (fun i => (discard i s).toNat) (fun i _ => (discard i s).isLt)
  refine ⟨j - i, by omega, by omega, ?_⟩
  have h : discard i s = discard j s := BitVec.eq_of_toNat_eq he
  have h2 : discard i (discard (j - i) s) = discard i s := by
    rw [← discard_add, h]; congr 1; omega
  exact discard_inj h2

/-- The inverse of the multiplier of `out`. -/
def inv : BitVec 64 := 0x95c11c128eba7c7d#64

theorem mul_inv : (0xd989bcacc137dcd5#64 : BitVec 64) * inv = 1#64 := by decide

/-- The word with the upper half `v` and the lower half `l`. -/
def join (v l : BitVec 32) : BitVec 64 := (v.setWidth 64 <<< 32) ||| l.setWidth 64

theorem getLsbD_join (v l : BitVec 32) (i : Nat) :
    (join v l).getLsbD i = if i < 32 then l.getLsbD i else v.getLsbD (i - 32) := by
  simp only [join, BitVec.getLsbD_or, BitVec.getLsbD_shiftLeft, BitVec.getLsbD_setWidth]
  by_cases h : i < 32
  · have : i < 64 := by omega
    simp [h, this]
  · rw [BitVec.getLsbD_of_ge l i (by omega)]
    by_cases h6 : i < 64
    · have : i - 32 < 64 := by omega
      simp [h, h6, this]
    · rw [BitVec.getLsbD_of_ge v (i - 32) (by omega)]; simp

/-- The state whose product with the multiplier has the upper half `v` and the lower half `l`. -/
def pre (v l : BitVec 32) : BitVec 64 := join v l * inv

theorem out_pre (v l : BitVec 32) : out (pre v l) = v := by
  have : pre v l * 0xd989bcacc137dcd5#64 = join v l := by
    rw [pre, BitVec.mul_assoc, BitVec.mul_comm inv, mul_inv, BitVec.mul_one]
  rw [out, this]
  apply BitVec.eq_of_getLsbD_eq
  intro i hi
  have h1 : ¬(32 + i < 32) := by omega
  simp [hi, BitVec.getLsbD_ushiftRight, getLsbD_join, h1]

theorem pre_inj {v l v' l' : BitVec 32} (h : pre v l = pre v' l') : l = l' := by
  have h2 : join v l = join v' l' := by
    have := congrArg (· * 0xd989bcacc137dcd5#64) h
    simp only [pre, BitVec.mul_assoc, BitVec.mul_comm inv, mul_inv, BitVec.mul_one] at this
    exact this
  apply BitVec.eq_of_getLsbD_eq
  intro i hi
  have := congrArg (fun x => x.getLsbD i) h2
  simpa [getLsbD_join, hi] using this

theorem pre_out (s : BitVec 64) : pre (out s) ((s * 0xd989bcacc137dcd5#64).setWidth 32) = s := by
  have h : join (out s) ((s * 0xd989bcacc137dcd5#64).setWidth 32) = s * 0xd989bcacc137dcd5#64 := by
    apply BitVec.eq_of_getLsbD_eq
    intro i hi
    by_cases h32 : i < 32
    · simp [getLsbD_join, h32]
    · have h1 : 32 + (i - 32) = i := by omega
      have h2 : i - 32 < 32 := by omega
      simp [getLsbD_join, h32, out, BitVec.getLsbD_ushiftRight, h1, h2]
  rw [pre, h, BitVec.mul_assoc, mul_inv, BitVec.mul_one]

/-- **C90**: every number is returned in equally many states: those in which `v` is returned are in one-to-one correspondence
with the 2^32 words of 32 bits. -/
theorem C90_uniform (v : BitVec 32) : ∃ f : BitVec 32 → BitVec 64,
    (∀ l l', f l = f l' → l = l') ∧ ∀ s, out s = v ↔ ∃ l, f l = s := by
  refine ⟨pre v, fun l l' h => pre_inj h, fun s => ⟨fun h => ?_, ?_⟩⟩
  · exact ⟨(s * 0xd989bcacc137dcd5#64).setWidth 32, by rw [← h]; exact pre_out s⟩
  · rintro ⟨l, rfl⟩; exact out_pre v l

/-- **C90**: the default generator is not stuck… -/
theorem C90_default (n : Nat) : discard n defaultSeed ≠ 0#64 := C90_never_zero (by decide) n

/-- … nor one seeded from a random device, unless both of its numbers are 0. -/
theorem C90_seed_partial {r1 r2 : BitVec 32} (h : r1 ≠ 0#32 ∨ r2 ≠ 0#32) (n : Nat) : discard n (seed r1 r2) ≠ 0#64 := by
  apply C90_never_zero
  intro h0
  have hb : ∀ i, (decide (i < 64) && !decide (i < 31) && (decide (i - 31 < 64) && r1.getLsbD (i - 31)) ||
      decide (i < 64) && r2.getLsbD i) = false := by
    intro i
    have := congrArg (fun x => x.getLsbD i) h0
    simpa [seed, BitVec.getLsbD_or, BitVec.getLsbD_shiftLeft, BitVec.getLsbD_setWidth] using this
  rcases h with h | h <;> apply h <;> apply BitVec.eq_of_getLsbD_eq <;> intro i hi
  · have := hb (i + 31)
    have a : i + 31 < 64 := by omega
    have b : ¬(i + 31 < 31) := by omega
    have c : i < 64 := by omega
    simp [a, b, c] at this
    simp [this.1]
  · have := hb i
    have a : i < 64 := by omega
    simp [a] at this
    simp [this.2]

/-- **C90** is false for the seed 0, which the constructor accepts: the generator returns 0 for ever. -/
theorem C90_zero_sticks (i : Nat) : nth 0#64 i = 0#32 := by
  have : ∀ i, discard i 0#64 = 0#64 := by
    intro i
    induction i with
    | zero => rfl
    | succ i ih => rw [discard, show next 0#64 = 0#64 by decide]; exact ih
  rw [nth, this]; decide

/-- **C90**: different numbers of the random device do not always give different generators (the shift is 31, not 32)… -/
theorem C90_seed_collides : ∃ r1 r2 r1' r2', (r1, r2) ≠ (r1', r2') ∧ seed r1 r2 = seed r1' r2' :=
  ⟨1#32, 0#32, 0#32, 0x80000000#32, by decide, by decide⟩

/-- … and half of the states cannot be had by seeding. -/
theorem C90_seed_half (r1 r2 : BitVec 32) : (seed r1 r2).msb = false := by
  simp [seed, BitVec.msb_eq_getLsbD_last, BitVec.getLsbD_or, BitVec.getLsbD_shiftLeft, BitVec.getLsbD_setWidth]

example : nth defaultSeed 0 ≠ nth defaultSeed 1 := by decide

end Verif.Xorshift
