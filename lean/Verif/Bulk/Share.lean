import Mathlib.Tactic.Linarith
import Mathlib.Tactic.Ring
/-! # `even_share` (static_thread_pool) — model and C36 -/
namespace Verif.Bulk

/-- `/repo/include/exec/static_thread_pool.hpp` lines 97-113, the arithmetic over unbounded naturals
    (the machine version below is proved equal to it). -/
def share (n rank size : Nat) : Nat × Nat :=
  let avg := n / size
  let big := n % size
  let b := if rank < big then (avg + 1) * rank else (avg + 1) * big + (rank - big) * avg
  (b, b + if rank < big then avg + 1 else avg)

/-- The same function on machine integers: `Shape` has `w ≤ 64` bits, `std::size_t` has 64, the
    arithmetic is done modulo 2^64 (usual arithmetic conversions with `size_t`) and both results are
    cast back to `Shape`. (`Shape` wider than 64 bits is not modelled.) -/
def evenShare {w : Nat} (n : BitVec w) (rank size : BitVec 64) : BitVec w × BitVec w :=
  let n' : BitVec 64 := n.setWidth 64
  let avg := n' / size
  let nBig := avg + 1
  let big := n' % size
  let isBig := decide (rank < big)
  let b := if isBig then nBig * rank else nBig * big + (rank - big) * avg
  let e := b + (if isBig then nBig else avg)
  (b.setWidth w, e.setWidth w)

theorem share_begin_zero (n size : Nat) : (share n 0 size).1 = 0 := by
  simp only [share]
  split
  · simp
  · have : n % size = 0 := by omega
    simp [this]

theorem share_le (n rank size : Nat) : (share n rank size).1 ≤ (share n rank size).2 := by
  simp only [share]; omega

theorem share_next (n rank size : Nat) :
    (share n rank size).2 = (share n (rank + 1) size).1 := by
  simp only [share]
  by_cases h1 : rank + 1 < n % size
  · rw [if_pos (show rank < n % size by omega), if_pos h1, if_pos (show rank < n % size by omega)]
    ring
  · by_cases h2 : rank < n % size
    · rw [if_pos h2, if_pos h2, if_neg h1]
      have : n % size = rank + 1 := by omega
      rw [this]; simp; ring
    · rw [if_neg h2, if_neg h2, if_neg h1]
      obtain ⟨d, hd⟩ : ∃ d, rank = n % size + d := ⟨rank - n % size, by omega⟩
      rw [show rank - n % size = d by omega, show rank + 1 - n % size = d + 1 by omega]
      ring

theorem share_end (n size : Nat) (hs : 0 < size) : (share n (size - 1) size).2 = n := by
  have hlt := Nat.mod_lt n hs
  have hdm := Nat.div_add_mod n size
  rw [share_next, show size - 1 + 1 = size by omega]
  simp only [share]
  rw [if_neg (by omega)]
  obtain ⟨d, hd⟩ : ∃ d, size = n % size + d := ⟨size - n % size, by omega⟩
  rw [show size - n % size = d by omega]
  calc (n / size + 1) * (n % size) + d * (n / size)
      = (n % size + d) * (n / size) + n % size := by ring
    _ = size * (n / size) + n % size := by rw [← hd]
    _ = n := hdm

theorem share_mono (n size : Nat) {r r' : Nat} (h : r ≤ r') :
    (share n r size).1 ≤ (share n r' size).1 := by
  induction h with
  | refl => exact Nat.le_refl _
  | step _ ih =>
    rename_i m _
    exact ih.trans ((share_le n m size).trans (share_next n m size).le)

theorem share_end_le (n size rank : Nat) (hs : rank < size) : (share n rank size).2 ≤ n := by
  have h1 := share_end n size (by omega)
  rw [share_next] at *
  have := share_mono n size (show rank + 1 ≤ size - 1 + 1 by omega)
  omega

theorem share_exists (n size i : Nat) (hs : 0 < size) (hi : i < n) :
    ∃ r < size, (share n r size).1 ≤ i ∧ i < (share n r size).2 := by
  have key : ∀ k ≤ size, i < (share n k size).1 →
      ∃ r < k, (share n r size).1 ≤ i ∧ i < (share n r size).2 := by
    intro k
    induction k with
    | zero => intro _ h; rw [share_begin_zero] at h; omega
    | succ k ih =>
      intro hk h
      by_cases hc : i < (share n k size).1
      · obtain ⟨r, h1, h2⟩ := ih (by omega) hc; exact ⟨r, by omega, h2⟩
      · exact ⟨k, by omega, by omega, by rw [share_next]; exact h⟩
  have h := share_end n size hs
  rw [share_next, show size - 1 + 1 = size by omega] at h
  exact key size (le_refl _) (by omega)

theorem share_unique (n size i r r' : Nat)
    (h : (share n r size).1 ≤ i ∧ i < (share n r size).2)
    (h' : (share n r' size).1 ≤ i ∧ i < (share n r' size).2) : r = r' := by
  rcases Nat.lt_trichotomy r r' with hlt | heq | hgt
  · have := share_mono n size (show r + 1 ≤ r' by omega)
    rw [← share_next] at this; omega
  · exact heq
  · have := share_mono n size (show r' + 1 ≤ r by omega)
    rw [← share_next] at this; omega

/-- Machine arithmetic never wraps: for every shape type of at most 64 bits, every `n`, and every
    rank below `size`, the machine result is the mathematical one. -/
theorem C36_no_overflow {w : Nat} (hw : w ≤ 64) (n : BitVec w) (rank size : BitVec 64)
    (hr : rank.toNat < size.toNat) :
    (evenShare n rank size).1.toNat = (share n.toNat rank.toNat size.toNat).1 ∧
    (evenShare n rank size).2.toNat = (share n.toNat rank.toNat size.toNat).2 := by
  have hn : (n.setWidth 64).toNat = n.toNat := by
    rw [BitVec.toNat_setWidth, Nat.mod_eq_of_lt]
    exact n.isLt.trans_le (Nat.pow_le_pow_right (by norm_num) hw)
  have hle := share_end_le n.toNat size.toNat rank.toNat hr
  have hbe := share_le n.toNat rank.toNat size.toNat
  have hnw := n.isLt
  have hp : 2 ^ w ≤ 2 ^ 64 := Nat.pow_le_pow_right (by norm_num) hw
  have hs : 0 < size.toNat := by omega
  have hdl : n.toNat / size.toNat ≤ n.toNat := Nat.div_le_self _ _
  have hml := Nat.mod_lt n.toNat hs
  have hdm := Nat.div_add_mod n.toNat size.toNat
  have hsz := size.isLt
  have hmn : n.toNat % size.toNat ≤ n.toNat := Nat.mod_le _ _
  -- the intermediate machine values
  have hbig : (n.setWidth 64 % size).toNat = n.toNat % size.toNat := by
    rw [BitVec.toNat_umod, hn]
  have havg : (n.setWidth 64 / size).toNat = n.toNat / size.toNat := by
    rw [BitVec.toNat_udiv, hn]
  have hlt : (rank < n.setWidth 64 % size) ↔ rank.toNat < n.toNat % size.toNat := by
    rw [BitVec.lt_def, hbig]
  simp only [share] at hle hbe
  simp only [evenShare, share, hlt, decide_eq_true_eq]
  by_cases hc : rank.toNat < n.toNat % size.toNat
  · simp only [hc, ite_true] at hle hbe ⊢
    have h1 : (n.toNat / size.toNat + 1) ≤ n.toNat := by
      have : n.toNat / size.toNat * 1 ≤ size.toNat * (n.toNat / size.toNat) := by
        rw [Nat.mul_comm]; exact Nat.mul_le_mul_right _ hs
      omega
    have h64 : (n.toNat / size.toNat + 1) < 2 ^ 64 := by omega
    have hnb : (n.setWidth 64 / size + 1).toNat = n.toNat / size.toNat + 1 := by
      rw [BitVec.toNat_add, havg]; exact Nat.mod_eq_of_lt h64
    have hb : ((n.setWidth 64 / size + 1) * rank).toNat
        = (n.toNat / size.toNat + 1) * rank.toNat := by
      rw [BitVec.toNat_mul, hnb]; exact Nat.mod_eq_of_lt (by omega)
    constructor
    · rw [BitVec.toNat_setWidth, hb]; exact Nat.mod_eq_of_lt (by omega)
    · rw [BitVec.toNat_setWidth, BitVec.toNat_add, hb, hnb,
        Nat.mod_eq_of_lt (show _ < 2 ^ 64 by omega)]
      exact Nat.mod_eq_of_lt (by omega)
  · simp only [hc, ite_false] at hle hbe ⊢
    have hpos : (n.toNat / size.toNat + 1) * (n.toNat % size.toNat) ≤ n.toNat := by omega
    have hpos2 : (rank.toNat - n.toNat % size.toNat) * (n.toNat / size.toNat) ≤ n.toNat := by omega
    have hnb : (n.setWidth 64 / size + 1).toNat * (n.setWidth 64 % size).toNat % 2 ^ 64
        = (n.toNat / size.toNat + 1) * (n.toNat % size.toNat) := by
      rw [hbig, BitVec.toNat_add, havg]
      by_cases h0 : n.toNat % size.toNat = 0
      · simp [h0]
      · have : (n.toNat / size.toNat + 1) < 2 ^ 64 := by
          have : (n.toNat / size.toNat + 1) * 1 ≤
            (n.toNat / size.toNat + 1) * (n.toNat % size.toNat) :=
            Nat.mul_le_mul_left _ (by omega)
          omega
        rw [show (1 : BitVec 64).toNat = 1 from rfl, Nat.mod_eq_of_lt this]
        exact Nat.mod_eq_of_lt (by omega)
    have hsub : (rank - n.setWidth 64 % size).toNat = rank.toNat - n.toNat % size.toNat := by
      rw [BitVec.toNat_sub, hbig]
      have := rank.isLt
      omega
    have hm2 : ((rank - n.setWidth 64 % size) * (n.setWidth 64 / size)).toNat =
        (rank.toNat - n.toNat % size.toNat) * (n.toNat / size.toNat) := by
      rw [BitVec.toNat_mul, hsub, havg]; exact Nat.mod_eq_of_lt (by omega)
    have hb : ((n.setWidth 64 / size + 1) * (n.setWidth 64 % size)
        + (rank - n.setWidth 64 % size) * (n.setWidth 64 / size)).toNat =
        (n.toNat / size.toNat + 1) * (n.toNat % size.toNat) +
        (rank.toNat - n.toNat % size.toNat) * (n.toNat / size.toNat) := by
      rw [BitVec.toNat_add, BitVec.toNat_mul, hnb, hm2]; exact Nat.mod_eq_of_lt (by omega)
    constructor
    · rw [BitVec.toNat_setWidth, hb]; exact Nat.mod_eq_of_lt (by omega)
    · rw [BitVec.toNat_setWidth, BitVec.toNat_add, hb, havg,
        Nat.mod_eq_of_lt (show _ < 2 ^ 64 by omega)]
      exact Nat.mod_eq_of_lt (by omega)

/-- The machine ranges `[begin rank, end rank)`, `rank < size`, partition `[0, n)`: they start at 0,
    are consecutive, end at `n`, every index lies in exactly one of them, and their lengths differ
    by at most one. -/
theorem C36_partition {w : Nat} (hw : w ≤ 64) (n : BitVec w) (size : BitVec 64)
    (hs : 0 < size.toNat) :
    (∀ i < n.toNat, ∃ r : BitVec 64, (r.toNat < size.toNat ∧
        (evenShare n r size).1.toNat ≤ i ∧ i < (evenShare n r size).2.toNat) ∧
      ∀ r' : BitVec 64, r'.toNat < size.toNat → (evenShare n r' size).1.toNat ≤ i →
        i < (evenShare n r' size).2.toNat → r' = r) ∧
    (∀ r : BitVec 64, r.toNat < size.toNat →
      (evenShare n r size).1.toNat ≤ (evenShare n r size).2.toNat ∧
      (evenShare n r size).2.toNat ≤ n.toNat) ∧
    (∀ r r' : BitVec 64, r.toNat < size.toNat → r'.toNat = r.toNat + 1 → r'.toNat < size.toNat →
      (evenShare n r size).2 = (evenShare n r' size).1) ∧
    (∀ r : BitVec 64, r.toNat = 0 → (evenShare n r size).1.toNat = 0) ∧
    (∀ r : BitVec 64, r.toNat + 1 = size.toNat → (evenShare n r size).2 = n) ∧
    (∀ r r' : BitVec 64, r.toNat < size.toNat → r'.toNat < size.toNat →
      (evenShare n r size).2.toNat - (evenShare n r size).1.toNat ≤
      (evenShare n r' size).2.toNat - (evenShare n r' size).1.toNat + 1) := by
  have H := fun r hr => C36_no_overflow hw n r size hr
  refine ⟨?_, ?_, ?_, ?_, ?_, ?_⟩
  · intro i hi
    obtain ⟨r, hr, h1⟩ := share_exists n.toNat size.toNat i hs hi
    have hr64 : r < 2 ^ 64 := hr.trans size.isLt
    have hrn : (BitVec.ofNat 64 r).toNat = r := by
      rw [BitVec.toNat_ofNat]; exact Nat.mod_eq_of_lt hr64
    refine ⟨BitVec.ofNat 64 r, ⟨by omega, ?_⟩, ?_⟩
    · have := H (BitVec.ofNat 64 r) (by omega)
      rw [this.1, this.2, hrn]; exact h1
    · intro r' hr' h2 h3
      have hh := H r' hr'
      rw [hh.1] at h2; rw [hh.2] at h3
      apply BitVec.eq_of_toNat_eq
      rw [hrn]
      exact share_unique _ _ _ _ _ ⟨h2, h3⟩ h1
  · intro r hr
    rw [(H r hr).1, (H r hr).2]
    exact ⟨share_le _ _ _, share_end_le _ _ _ hr⟩
  · intro r r' hr he hr'
    apply BitVec.eq_of_toNat_eq
    rw [(H r hr).2, (H r' hr').1, he, share_next]
  · intro r hr
    rw [(H r (by omega)).1, hr, share_begin_zero]
  · intro r hr
    apply BitVec.eq_of_toNat_eq
    rw [(H r (by omega)).2, show r.toNat = size.toNat - 1 by omega, share_end _ _ hs]
  · intro r r' hr hr'
    rw [(H r hr).1, (H r hr).2, (H r' hr').1, (H r' hr').2]
    simp only [share]
    split <;> split <;> omega

/-- The documented example, and the hypotheses met by a large machine-size case. -/
example : (List.range 3).map (fun r => (evenShare (w := 64) 11 (BitVec.ofNat 64 r) 3)) =
    [(0, 4), (4, 8), (8, 11)] := by decide
example : (2#64).toNat < (7#64).toNat ∧
    evenShare (w := 64) (BitVec.ofNat 64 (2^64 - 1)) 2 7 =
      (5270498306774157605, 7905747460161236407) := by decide

end Verif.Bulk
