import Verif.Scope.Model
/-!
# Counting scopes: the packed word

The model in `Verif.Scope.Model` keeps `__bits_` unpacked. Here the packed word is modelled (a 64-bit unsigned
number, operations modulo `2^64`), and every operation of the code on the packed word is shown to be the model's
operation on the unpacked one, for every count up to `max_associations`.
-/
namespace Verif.Scope.Packed

def wordSize : Nat := 2 ^ 64
/-- 271-272: `numeric_limits<size_t>::max() >> 3` -/
def maxAssociations : Nat := (2 ^ 64 - 1) >>> 3
/-- 534-536 -/
def closed : Nat := 1
def joinNeeded : Nat := 2
def joinRunning : Nat := 4
/-- 575-578, 582-585 -/
def isClosed (w : Nat) : Bool := !(w &&& closed == 0)
/-- 591-594 -/
def isJoined (w : Nat) : Bool := w == closed
/-- 597-600 -/
def isJoining (w : Nat) : Bool := w &&& joinRunning != 0
/-- 569-572, 604-607 -/
def isJoinNeeded (w : Nat) : Bool := !(w &&& joinNeeded == 0)
/-- 610-616; `~1` on 64 bits -/
def destructible (w : Nat) : Bool := w &&& (2 ^ 64 - 1 - closed) == 0
/-- 620-623 -/
def count (w : Nat) : Nat := w >>> 3
/-- 627-630 -/
def state (w : Nat) : Nat := w &&& 7
/-- 634-644 -/
def makeBits (c s : Nat) : Nat := ((c <<< 3) % 2 ^ 64) ||| state s
/-- 325-326: `fetch_or(__closed)` -/
def close (w : Nat) : Nat := w ||| closed
/-- 328-346 -/
def assoc (w : Nat) : Nat := makeBits ((count w + 1) % 2 ^ 64) (state w ||| joinNeeded)
/-- 364 -/
def refuses (w : Nat) : Bool := isClosed w || count w == maxAssociations
/-- 410-430 -/
def dis (w : Nat) : Nat :=
  let c := count w - 1
  makeBits c (if c == 0 && isJoining w then closed else state w)
/-- 484 -/
def joined (w : Nat) : Nat := makeBits (count w) closed
/-- 511 -/
def joining (w : Nat) : Nat := w ||| joinRunning

/-- The three state bits. -/
def stOf (b : Bits) : Nat := b.closed.toNat + 2 * b.needed.toNat + 4 * b.running.toNat
/-- The packed representation of the model's bits. -/
def pack (b : Bits) : Nat := 8 * b.count + stOf b

theorem stOf_lt (b : Bits) : stOf b < 8 := by
  simp only [stOf]; cases b.closed <;> cases b.needed <;> cases b.running <;> simp

theorem or_eq {c k : Nat} (hk : k < 8) : 8 * c ||| k = 8 * c + k := by
  have := Nat.two_pow_add_eq_or_of_lt (i := 3) (b := k) (by simpa using hk) c
  simpa using this.symm

theorem add_or {c k m : Nat} (hk : k < 8) (hm : m < 8) : (8 * c + k) ||| m = 8 * c + (k ||| m) := by
  have h8 : k ||| m < 8 := Nat.or_lt_two_pow (n := 3) hk hm
  rw [← or_eq hk, ← or_eq h8, Nat.or_assoc]

theorem mul_and {c m : Nat} (hm : m < 8) : 8 * c &&& m = 0 := by
  apply Nat.eq_of_testBit_eq
  intro i
  rw [Nat.testBit_and, Nat.zero_testBit]
  by_cases hi : i < 3
  · have : (8 * c).testBit i = false := by
      rw [show 8 * c = 2 ^ 3 * c by omega, Nat.testBit_two_pow_mul]; simp; omega
    simp [this]
  · have : m.testBit i = false := by
      apply Nat.testBit_lt_two_pow
      exact Nat.lt_of_lt_of_le hm (Nat.pow_le_pow_right (by omega) (by omega) : 2 ^ 3 ≤ 2 ^ i)
    simp [this]

theorem add_and {c k m : Nat} (hk : k < 8) (hm : m < 8) : (8 * c + k) &&& m = k &&& m := by
  rw [← or_eq hk, Nat.and_or_distrib_right, mul_and hm, Nat.zero_or]

theorem count_pack (b : Bits) : count (pack b) = b.count := by
  have := stOf_lt b
  simp only [count, pack, Nat.shiftRight_eq_div_pow]; omega

theorem state_pack (b : Bits) : state (pack b) = stOf b := by
  have h := stOf_lt b
  rw [state, pack, add_and h (by omega)]
  simpa using Nat.and_two_pow_sub_one_of_lt_two_pow (n := 3) (x := stOf b) (by simpa using h)

theorem state_small {k : Nat} (h : k < 8) : state k = k := by
  rw [state]
  simpa using Nat.and_two_pow_sub_one_of_lt_two_pow (n := 3) (x := k) (by simpa using h)

theorem makeBits_eq {c k : Nat} (hc : c ≤ maxAssociations) (hk : k < 8) : makeBits c k = 8 * c + k := by
  have hm : maxAssociations = 2305843009213693951 := by simp [maxAssociations]
  rw [makeBits, state_small hk, Nat.shiftLeft_eq, Nat.mod_eq_of_lt (by omega), show c * 2 ^ 3 = 8 * c by omega, or_eq hk]

/-- The representation is faithful. -/
theorem pack_inj {a b : Bits} (h : pack a = pack b) : a = b := by
  have hc : a.count = b.count := by rw [← count_pack a, h, count_pack]
  have hs : stOf a = stOf b := by rw [← state_pack a, h, state_pack]
  obtain ⟨ac, a1, a2, a3⟩ := a
  obtain ⟨bc, b1, b2, b3⟩ := b
  simp only [stOf] at hc hs
  subst hc
  cases a1 <;> cases a2 <;> cases a3 <;> cases b1 <;> cases b2 <;> cases b3 <;> simp at hs ⊢

/-- The word fits 64 bits. -/
theorem pack_fits {b : Bits} (h : b.count ≤ maxAssociations) : pack b < wordSize := by
  have hm : maxAssociations = 2305843009213693951 := by simp [maxAssociations]
  have := stOf_lt b
  simp only [pack, wordSize]; omega

theorem isClosed_pack (b : Bits) : isClosed (pack b) = b.closed := by
  rw [isClosed, pack, closed, add_and (stOf_lt b) (by omega)]
  simp only [stOf]; cases b.closed <;> cases b.needed <;> cases b.running <;> decide

theorem isJoining_pack (b : Bits) : isJoining (pack b) = b.running := by
  rw [isJoining, pack, joinRunning, add_and (stOf_lt b) (by omega)]
  simp only [stOf]; cases b.closed <;> cases b.needed <;> cases b.running <;> decide

theorem isJoinNeeded_pack (b : Bits) : isJoinNeeded (pack b) = b.needed := by
  rw [isJoinNeeded, pack, joinNeeded, add_and (stOf_lt b) (by omega)]
  simp only [stOf]; cases b.closed <;> cases b.needed <;> cases b.running <;> decide

theorem isJoined_pack (b : Bits) : isJoined (pack b) = b.isJoined := by
  rw [Bool.eq_iff_iff]
  simp only [isJoined, Bits.isJoined, beq_iff_eq, closed]
  constructor
  · intro h; exact pack_inj (by rw [h]; rfl)
  · intro h; rw [h]; rfl

theorem init_pack : pack ⟨0, false, false, false⟩ = 0 := rfl

theorem close_pack (b : Bits) : close (pack b) = pack { b with closed := true } := by
  rw [close, closed, pack, add_or (stOf_lt b) (by omega), pack]
  congr 1
  simp only [stOf]; cases b.closed <;> cases b.needed <;> cases b.running <;> decide

theorem joining_pack (b : Bits) : joining (pack b) = pack { b with running := true } := by
  rw [joining, joinRunning, pack, add_or (stOf_lt b) (by omega), pack]
  congr 1
  simp only [stOf]; cases b.closed <;> cases b.needed <;> cases b.running <;> decide

theorem refuses_pack (b : Bits) : refuses (pack b) = b.refuses maxAssociations := by
  rw [refuses, isClosed_pack, count_pack]; rfl

theorem assoc_pack {b : Bits} (h : b.count < maxAssociations) : assoc (pack b) = pack b.assoc := by
  have hm : maxAssociations = 2305843009213693951 := by simp [maxAssociations]
  have hs : stOf b ||| joinNeeded = stOf b.assoc := by
    simp only [stOf, Bits.assoc]; cases b.closed <;> cases b.needed <;> cases b.running <;> decide
  rw [assoc, count_pack, state_pack, hs, Nat.mod_eq_of_lt (by omega), makeBits_eq (by omega) (stOf_lt _)]
  rfl

theorem dis_pack {b : Bits} (h : b.count ≤ maxAssociations) : dis (pack b) = pack b.dis := by
  simp only [dis, count_pack, isJoining_pack, state_pack]
  simp only [Bits.dis, beq_iff_eq, Bool.and_eq_true]
  split
  · rename_i h0
    rw [h0.1, makeBits_eq (by omega) (by decide)]; rfl
  · rw [makeBits_eq (by omega) (stOf_lt _)]; rfl

theorem joined_pack {b : Bits} (h : b.count = 0) : joined (pack b) = pack ⟨0, true, false, false⟩ := by
  rw [joined, count_pack, h]; decide

theorem and_not_one {w : Nat} (h : w < 2 ^ 64) : w &&& (2 ^ 64 - 1 - 1) = w - w % 2 := by
  apply Nat.eq_of_testBit_eq
  intro i
  have e : w - w % 2 = 2 ^ 1 * (w / 2) := by omega
  have e2 : (2 ^ 64 - 1 - 1 : Nat) = 2 ^ 1 * (2 ^ 63 - 1) := by decide
  rw [e, e2, Nat.testBit_and, Nat.testBit_two_pow_mul, Nat.testBit_two_pow_mul]
  by_cases hi : 1 ≤ i
  · have hw : (w / 2).testBit (i - 1) = w.testBit i := by
      rw [show w / 2 = w >>> 1 by simp [Nat.shiftRight_eq_div_pow], Nat.testBit_shiftRight]; congr 1; omega
    rw [hw, Nat.testBit_two_pow_sub_one]
    by_cases h64 : i < 64
    · simp [hi]; omega
    · have : w.testBit i = false := by
        apply Nat.testBit_lt_two_pow
        exact Nat.lt_of_lt_of_le h (Nat.pow_le_pow_right (by omega) (by omega))
      simp [this]
  · simp [hi]

theorem destructible_pack {b : Bits} (h : b.count ≤ maxAssociations) :
    destructible (pack b) = b.destructible := by
  have hf := pack_fits h
  rw [destructible, closed, and_not_one hf, Bool.eq_iff_iff]
  simp only [pack, stOf, Bits.destructible, beq_iff_eq, Bool.and_eq_true, Bool.not_eq_true']
  cases b.closed <;> cases b.needed <;> cases b.running <;> simp <;> omega

/-- C13-C15: the packed word of the code and the unpacked one of the model agree on every test and every update, for
all counts up to `max_associations`. -/
theorem C13_packed {b : Bits} (h : b.count ≤ maxAssociations) :
    pack b < wordSize ∧ isClosed (pack b) = b.closed ∧ isJoined (pack b) = b.isJoined ∧
    isJoining (pack b) = b.running ∧ destructible (pack b) = b.destructible ∧ count (pack b) = b.count ∧
    refuses (pack b) = b.refuses maxAssociations ∧ close (pack b) = pack { b with closed := true } ∧
    (b.refuses maxAssociations = false → assoc (pack b) = pack b.assoc) ∧ dis (pack b) = pack b.dis ∧
    (b.count = 0 → joined (pack b) = pack ⟨0, true, false, false⟩) ∧
    joining (pack b) = pack { b with running := true } := by
  refine ⟨pack_fits h, isClosed_pack b, isJoined_pack b, isJoining_pack b, destructible_pack h, count_pack b,
    refuses_pack b, close_pack b, fun hr => assoc_pack ?_, dis_pack h, joined_pack, joining_pack b⟩
  simp only [Bits.refuses, Bool.or_eq_false_iff, beq_eq_false_iff_ne] at hr
  omega

/-- A count near the maximum, all bits set. -/
example : assoc (pack ⟨2 ^ 61 - 2, false, true, true⟩) = 2 ^ 64 - 2 ∧
    refuses (assoc (pack ⟨2 ^ 61 - 2, false, true, true⟩)) = true := by decide

end Verif.Scope.Packed
