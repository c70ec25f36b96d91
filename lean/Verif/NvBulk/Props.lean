import Verif.NvBulk.Model

namespace Verif.NvBulk

attribute [local grind] List.mem_append

/-! ## Conversions that change nothing -/

theorem two_pow_succ (w : Nat) (h : 1 ≤ w) : (2 : Int) ^ w = 2 * 2 ^ (w - 1) := by
  obtain ⟨v, rfl⟩ : ∃ v, w = v + 1 := ⟨w - 1, by omega⟩
  simp [Int.pow_succ, Int.mul_comm]

theorem wrap_id {T : IT} (hw : 1 ≤ T.w) {x : Int} (h0 : 0 ≤ x) (h1 : x ≤ T.max) : T.wrap x = x := by
  have hp := two_pow_succ T.w hw
  have hpos : (0 : Int) < 2 ^ (T.w - 1) := Int.pow_pos (by decide)
  simp only [IT.wrap, IT.max] at *
  have hc : ((2 ^ T.w : Nat) : Int) = 2 ^ T.w := by simp
  split
  · rename_i hs
    rw [if_pos hs] at h1
    rw [Int.bmod_def, hc, Int.emod_eq_of_lt h0 (by omega), if_pos (by omega)]
  · rename_i hs
    rw [if_neg hs] at h1
    rw [hc]
    exact Int.emod_eq_of_lt h0 (by omega)

theorem i32_id {x : Int} (h0 : 0 ≤ x) (h1 : x ≤ 2147483647) : i32.wrap x = x :=
  wrap_id (by decide) h0 (by simpa [i32, IT.max] using h1)

theorem u64_id {x : Int} (h0 : 0 ≤ x) (h1 : x < 2 ^ 64) : u64.wrap x = x :=
  wrap_id (by decide) h0 (by simp [u64, IT.max]; omega)

theorem max_lt {T : IT} (hw : T.w ≤ 64) : T.max < 2 ^ 64 := by
  have h : ∀ w : Nat, w ≤ 64 → (2 : Int) ^ w ≤ 2 ^ 64 := by
    intro w hw
    have : (2 : Nat) ^ w ≤ 2 ^ 64 := Nat.pow_le_pow_right (by decide) hw
    exact_mod_cast this
  simp only [IT.max]
  split
  · have := h (T.w - 1) (by omega); omega
  · have := h T.w hw; omega

theorem grid_eq {n : Nat} (h : n ≤ 2147483391) : grid n = some (((n + 255) / 256 : Nat) : Int) := by
  have : ¬ i32.wrap (n : Int) + 256 > i32.max := by
    rw [i32_id (by omega) (by omega)]; simp [i32, IT.max]; omega
  rw [grid, if_neg this, i32_id (by omega) (by omega)]
  have h2 : ((n : Int) + 256 - 1).tdiv 256 = ((n : Int) + 256 - 1) / 256 :=
    Int.tdiv_eq_ediv_of_nonneg (by omega)
  have h3 : ((n : Int) + 256 - 1) / 256 = (((n + 255) / 256 : Nat) : Int) := by omega
  rw [h2, h3]

theorem range_filterMap {f : Nat → Option Int} {m n : Nat} {b : Int} (hnm : n ≤ m)
    (h1 : ∀ t, t < n → f t = some (b + t)) (h2 : ∀ t, n ≤ t → t < m → f t = none) :
    (List.range m).filterMap f = (List.range n).map (fun t : Nat => b + (t : Int)) := by
  obtain ⟨k, rfl⟩ := Nat.exists_eq_add_of_le hnm
  rw [List.range_add, List.filterMap_append]
  have e1 : (List.range n).filterMap f = (List.range n).map (fun t : Nat => b + (t : Int)) := by
    have : ∀ l : List Nat, (∀ t ∈ l, t < n) → l.filterMap f = l.map (fun t : Nat => b + (t : Int)) := by
      intro l
      induction l with
      | nil => intro _; rfl
      | cons x l ih =>
        intro hl
        rw [List.filterMap_cons_some (h1 x (hl x (by simp))), ih (fun t ht => hl t (List.mem_cons_of_mem _ ht)),
          List.map_cons]
    exact this _ (fun t ht => List.mem_range.1 ht)
  have e2 : ((List.range k).map (n + ·)).filterMap f = [] := by
    rw [List.filterMap_eq_nil_iff]
    intro t ht
    obtain ⟨a, ha, rfl⟩ := List.mem_map.1 ht
    have := List.mem_range.1 ha
    exact h2 _ (by omega) (by omega)
  rw [e1, e2, List.append_nil]

/-! ## One device -/

/-- **C81** (partial: at most 2^31 - 257 iterations; see `C81_single_violation`). The function is called once with
every index below the shape and with no other. -/
theorem C81_single_partial (n : Nat) (h : n ≤ 2 ^ 31 - 257) :
    single n = .calls ((List.range n).map fun t : Nat => (t : Int)) := by
  by_cases h0 : n = 0
  · subst h0; rfl
  · have hn : ¬ ((n : Int) = 0) := by omega
    rw [single, if_neg hn, grid_eq (by omega)]
    simp only
    rw [if_neg (by omega)]
    congr 1
    rw [range_filterMap (b := 0) (n := n)]
    · congr 1; funext t; omega
    · omega
    · intro t ht
      rw [kernel, i32_id (by omega) (by omega), i32_id (by omega) (by omega), if_pos (by omega)]
      congr 1; omega
    · intro t ht h2
      rw [kernel, i32_id (by omega) (by omega), i32_id (by omega) (by omega), if_neg (by omega)]

/-! ## Several devices -/

/-- Where the share of device `r` begins. -/
def bound (n k r : Nat) : Nat := n / k * r + min r (n % k)

theorem bound_mono (n k r : Nat) : bound n k r ≤ bound n k (r + 1) ∧
    bound n k (r + 1) ≤ bound n k r + n / k + 1 := by
  simp only [bound, Nat.mul_add]
  omega

theorem bound_le {n k r : Nat} (h : r ≤ k) : bound n k r ≤ n := by
  have h1 := Nat.div_add_mod n k
  have h2 : n / k * r ≤ n / k * k := Nat.mul_le_mul_left _ h
  have h3 : n / k * k = k * (n / k) := Nat.mul_comm _ _
  simp only [bound]
  omega

theorem bound_last {n k : Nat} (hk : 0 < k) : bound n k k = n := by
  have h1 := Nat.div_add_mod n k
  have h3 : n / k * k = k * (n / k) := Nat.mul_comm _ _
  have := Nat.mod_lt n hk
  simp only [bound]
  omega

theorem evenShare_eq {T : IT} (hw : 1 ≤ T.w) (hw' : T.w ≤ 64) {n k r : Nat} (hn : (n : Int) < T.max)
    (hr : r < k) : evenShare T n r k = ((bound n k r : Int), (bound n k (r + 1) : Int)) := by
  have hmx := max_lt hw'
  have hb1 : bound n k r ≤ n := bound_le (by omega)
  have hb2 : bound n k (r + 1) ≤ n := bound_le (by omega)
  have hm := bound_mono n k r
  have hd : n / k ≤ n := Nat.div_le_self _ _
  have hmod : ((n : Int) % (k : Int)) = ((n % k : Nat) : Int) := by simp
  have hdiv : ((n : Int) / (k : Int)) = ((n / k : Nat) : Int) := by simp
  simp only [evenShare]
  rw [u64_id (x := (n : Int)) (by omega) (by omega), hmod, hdiv,
    u64_id (x := ((n / k : Nat) : Int) + 1) (by omega) (by omega)]
  have key : (if (r : Int) < ((n % k : Nat) : Int) then u64.wrap ((((n / k : Nat) : Int) + 1) * (r : Int))
      else u64.wrap ((((n / k : Nat) : Int) + 1) * ((n % k : Nat) : Int) +
        ((r : Int) - ((n % k : Nat) : Int)) * ((n / k : Nat) : Int))) = (bound n k r : Int) := by
    split
    · rename_i h
      have : (((n / k : Nat) : Int) + 1) * (r : Int) = (bound n k r : Int) := by
        have hmin : min r (n % k) = r := by omega
        simp only [bound, hmin]
        push_cast
        rw [Int.add_mul, Int.one_mul]
      rw [this]; exact u64_id (by omega) (by omega)
    · rename_i h
      have : (((n / k : Nat) : Int) + 1) * ((n % k : Nat) : Int) +
          ((r : Int) - ((n % k : Nat) : Int)) * ((n / k : Nat) : Int) = (bound n k r : Int) := by
        have hmin : min r (n % k) = n % k := by omega
        simp only [bound, hmin]
        push_cast
        grind
      rw [this]; exact u64_id (by omega) (by omega)
  rw [key]
  have key2 : (bound n k r : Int) + (if (r : Int) < ((n % k : Nat) : Int) then ((n / k : Nat) : Int) + 1
      else ((n / k : Nat) : Int)) = (bound n k (r + 1) : Int) := by
    simp only [bound, Nat.mul_add, Nat.mul_one]
    split <;> omega
  rw [key2, u64_id (by omega) (by omega), wrap_id hw (by omega) (by omega), wrap_id hw (by omega) (by omega)]

/-- The indices visited by device `r`. -/
def share (n k r : Nat) : List Int :=
  (List.range (bound n k (r + 1) - bound n k r)).map fun t : Nat => (bound n k r : Int) + (t : Int)

theorem device_eq {T : IT} (hw : 1 ≤ T.w) (hw' : T.w ≤ 64) {n k r : Nat} (hn : (n : Int) + 255 ≤ T.max)
    (hr : r < k) (hs : n / k ≤ 2147483390) :
    device T n r k = if bound n k r < bound n k (r + 1) then some (.calls (share n k r)) else none := by
  have hb1 : bound n k r ≤ n := bound_le (by omega)
  have hb2 : bound n k (r + 1) ≤ n := bound_le (by omega)
  have hm := bound_mono n k r
  have hsub : T.wrap ((bound n k (r + 1) : Int) - (bound n k r : Int)) =
      ((bound n k (r + 1) - bound n k r : Nat) : Int) := by
    rw [wrap_id hw (by omega) (by omega)]; omega
  simp only [device, evenShare_eq hw hw' (by omega : (n : Int) < T.max) hr, hsub]
  rw [grid_eq (by omega)]
  simp only
  by_cases h : bound n k r < bound n k (r + 1)
  · rw [if_pos (by omega), if_neg (by omega), if_pos h]
    have hw2 : ∀ t : Nat, t < (bound n k (r + 1) - bound n k r + 255) / 256 * 256 → T.wrap (t : Int) = t ∧
        (bound n k r : Int) + t ≤ T.max := by
      intro t ht
      refine ⟨wrap_id hw (by omega) (by omega), by omega⟩
    have htn : (((bound n k (r + 1) - bound n k r + 255) / 256 : Nat) : Int) * 256 =
        (((bound n k (r + 1) - bound n k r + 255) / 256 * 256 : Nat) : Int) := by omega
    rw [htn, Int.toNat_natCast, if_neg]
    · congr 2
      apply range_filterMap
      · omega
      · intro t ht
        obtain ⟨h1, h2⟩ := hw2 t (by omega)
        rw [multiKernel, h1, wrap_id hw (by omega) h2, if_pos (by omega)]
      · intro t ht ht'
        obtain ⟨h1, h2⟩ := hw2 t ht'
        rw [multiKernel, h1, wrap_id hw (by omega) h2, if_neg (by omega)]
    · simp only [List.any_eq_true, not_exists, not_and]
      intro t ht
      obtain ⟨h1, h2⟩ := hw2 t (List.mem_range.1 ht)
      simp [overflows, h1]
      intros; omega
  · rw [if_neg (by omega), if_neg h]

theorem join_calls (f : Nat → Option Out) (g : Nat → List Int) :
    ∀ l : List Nat, (∀ d ∈ l, f d = some (.calls (g d)) ∨ (f d = none ∧ g d = [])) →
      join (l.map f) = .calls (l.flatMap g)
  | [], _ => rfl
  | d :: l, h => by
    have ih := join_calls f g l (fun x hx => h x (List.mem_cons_of_mem _ hx))
    rw [List.map_cons, List.flatMap_cons]
    rcases h d (by simp) with h1 | ⟨h1, h2⟩
    · rw [h1, join, ih]
    · rw [h1, join, ih, h2]; rfl

theorem shares (n k : Nat) : ∀ r, (List.range r).flatMap (share n k) =
    (List.range (bound n k r)).map fun t : Nat => (t : Int)
  | 0 => by simp [bound]
  | r + 1 => by
    rw [List.range_succ, List.flatMap_append, shares n k r]
    have hm := bound_mono n k r
    obtain ⟨m, hm2⟩ := Nat.exists_eq_add_of_le hm.1
    rw [hm2, List.range_add, List.map_append, List.map_map]
    congr 1
    simp only [List.flatMap_cons, List.flatMap_nil, List.append_nil, share, hm2, Nat.add_sub_cancel_left]
    congr 1

theorem order_perm {k cur : Nat} (h : cur < k) : (order k cur).Perm (List.range k) := by
  have h1 : (List.range k).Perm (cur :: (List.range k).erase cur) :=
    List.perm_cons_erase (List.mem_range.2 h)
  have h2 : (List.range k).erase cur = (List.range k).filter (· ≠ cur) := by
    rw [List.nodup_range.erase_eq_filter]
    congr 1
    funext x
    simp [bne, BEq.beq]
  rw [h2] at h1
  exact (List.perm_append_comm.trans (by simpa [order] using h1.symm))

/-- **C81** (partial: the shape, rounded up to whole blocks, fits its type, and a device's share 31 bits; see
`C81_multi_violation`). Whatever integral type the shape has and however many devices there are, the function is
called once with every index below the shape and with no other. -/
theorem C81_multi_partial (T : IT) (hw : 1 ≤ T.w) (hw' : T.w ≤ 64) (n k cur : Nat) (hc : cur < k)
    (hn : (n : Int) + 255 ≤ T.max) (hs : n / k + 257 < 2 ^ 31) :
    ∃ l, multi T n k cur = .calls l ∧ l.Perm ((List.range n).map fun t : Nat => (t : Int)) := by
  by_cases h0 : n = 0
  · subst h0; exact ⟨[], rfl, by simp⟩
  · refine ⟨(order k cur).flatMap (share n k), ?_, ?_⟩
    · rw [multi, if_neg (by omega)]
      apply join_calls
      intro d hd
      have hd2 : d < k := List.mem_range.1 ((order_perm hc).mem_iff.1 hd)
      rw [device_eq hw hw' hn hd2 (by omega)]
      by_cases hb : bound n k d < bound n k (d + 1)
      · exact .inl (if_pos hb)
      · refine .inr ⟨if_neg hb, ?_⟩
        have : bound n k (d + 1) - bound n k d = 0 := by omega
        simp [share, this]
    · have h1 := (order_perm hc).flatMap_right (share n k)
      rw [shares, bound_last (by omega)] at h1
      exact h1

/-- **C81**. The work is shared out evenly: no device gets two more indices than another. -/
theorem C81_even (n k r r' : Nat) (T : IT) (hw : 1 ≤ T.w) (hw' : T.w ≤ 64) (hn : (n : Int) < T.max)
    (hr : r < k) (hr' : r' < k) :
    (evenShare T n r k).2 - (evenShare T n r k).1 ≤ (evenShare T n r' k).2 - (evenShare T n r' k).1 + 1 := by
  rw [evenShare_eq hw hw' hn hr, evenShare_eq hw hw' hn hr']
  simp only [bound, Nat.mul_add, Nat.mul_one]
  omega

/-! ## Order -/

theorem issues_append (q : Q) (a b : List Cmd) : q.issues (a ++ b) = (q.issues a).issues b := by
  simp [Q.issues]

theorem issues_cons (q : Q) (c : Cmd) (b : List Cmd) : q.issues (c :: b) = (q.issue c).issues b := rfl

/-- What holds while the other devices' work is enqueued: `P` is the work that precedes the bulk. -/
structure OInv (P : List Nat) (L : List (Nat × List Nat)) (done : List Nat) (q : Q) : Prop where
  e0 : P ⊆ q.evt 0
  p0 : P ⊆ q.past 0
  ev : ∀ d ∈ done, d ∈ q.evt (d + 1)
  ex : ∃ new, q.log = new ++ L ∧ (∀ x ∈ new, P ⊆ x.2) ∧ new.map Prod.fst = done.reverse

theorem others {has : Nat → Bool} {P : List Nat} {L : List (Nat × List Nat)} :
    ∀ (l done : List Nat) (q : Q), OInv P L done q →
      OInv P L (done ++ l.filter has) (q.issues (l.flatMap (otherCmds has)))
  | [], done, q, h => by simpa [Q.issues] using h
  | d :: l, done, q, h => by
    rw [List.flatMap_cons, issues_append]
    cases hd : has d with
    | false =>
      rw [List.filter_cons_of_neg (by simp [hd])]
      refine others l done _ ?_
      simpa [otherCmds, hd, Q.issues] using h
    | true =>
      rw [List.filter_cons_of_pos hd]
      have : done ++ d :: l.filter has = (done ++ [d]) ++ l.filter has := by simp
      rw [this]
      refine others l (done ++ [d]) _ ?_
      simp only [otherCmds, hd, if_true, Q.issues, List.foldl, Q.issue]
      constructor
      · simpa [upd_apply] using h.e0
      · simpa [upd_apply] using h.p0
      · intro x hx
        simp only [upd_apply, Nat.add_right_cancel_iff]
        by_cases hxd : x = d
        · subst hxd; simp
        · rw [if_neg hxd]
          simp only [List.mem_append, List.mem_singleton] at hx
          exact h.ev x (hx.resolve_right hxd)
      · obtain ⟨new, n1, n2, n3⟩ := h.ex
        refine ⟨(d, q.evt 0 ++ q.past (d + 1)) :: new, by simp [n1], ?_, by simp [n3]⟩
        intro x hx
        rcases List.mem_cons.1 hx with rfl | hx
        · exact fun y hy => List.mem_append_left _ (h.e0 hy)
        · exact n2 x hx

theorem waits : ∀ (l : List Nat) (q : Q),
    let q' := q.issues (l.map fun d => .wait 0 (d + 1))
    (∀ x, x ∈ q.past 0 → x ∈ q'.past 0) ∧ (∀ d ∈ l, ∀ x ∈ q.evt (d + 1), x ∈ q'.past 0) ∧ q'.log = q.log
  | [], q => by simp [Q.issues]
  | d :: l, q => by
    obtain ⟨h1, h2, h3⟩ := waits l (q.issue (.wait 0 (d + 1)))
    refine ⟨fun x hx => ?_, fun y hy x hx => ?_, h3⟩
    · exact h1 x (by simp [Q.issue, hx])
    · rcases List.mem_cons.1 hy with rfl | hy
      · exact h1 x (by simp [Q.issue, hx])
      · exact h2 y hy x hx

/-- **C81**. On several devices: no call starts before everything that was enqueued on the stream before the
bulk is finished, and everything enqueued on the stream afterwards starts after all calls, and after what was
enqueued before, are finished; every device with a share has exactly one launch. -/
theorem C81_order (has : Nat → Bool) (k cur : Nat) (hc : cur < k) (q : Q) (next : Nat) :
    ∃ (new : List (Nat × List Nat)) (ps : List Nat),
      (q.issues (cmds has k cur true ++ [.work 0 next])).log = (next, ps) :: new ++ q.log ∧
      (new.map Prod.fst).Perm ((List.range k).filter has) ∧
      (∀ x ∈ new, q.past 0 ⊆ x.2) ∧
      (∀ d, d < k → has d = true → d ∈ ps) ∧ q.past 0 ⊆ ps := by
  have h0 : OInv (q.past 0) q.log [] (q.issue (.record 0 0)) := by
    constructor <;> simp [Q.issue]
  have h1 := others (has := has) ((List.range k).filter (· ≠ cur)) [] _ h0
  simp only [cmds, if_true, issues_cons, List.append_assoc, issues_append, List.cons_append]
  simp only [List.nil_append] at h1
  revert h1
  generalize ((q.issue (.record 0 0)).issues
    (((List.range k).filter (· ≠ cur)).flatMap (otherCmds has))) = q1
  intro h1
  have h2 : ∀ q2 : Q, q2 = q1.issues (if has cur then [.work 0 cur] else []) →
      (∀ x ∈ q1.past 0, x ∈ q2.past 0) ∧ q2.evt = q1.evt ∧ (has cur = true → cur ∈ q2.past 0) ∧
      ∃ new, q2.log = new ++ q.log ∧ (∀ x ∈ new, q.past 0 ⊆ x.2) ∧
        new.map Prod.fst = ((order k cur).filter has).reverse := by
    rintro q2 rfl
    obtain ⟨new, n1, n2, n3⟩ := h1.ex
    cases hc : has cur with
    | false =>
      refine ⟨fun x hx => hx, rfl, fun h => Bool.noConfusion h, new, n1, n2, ?_⟩
      simp [n3, order, List.filter_append, hc]
    | true =>
      simp only [if_true, Q.issues, List.foldl, Q.issue, upd_same]
      refine ⟨fun x hx => List.mem_cons_of_mem _ hx, trivial, fun _ => by simp, (cur, q1.past 0) :: new,
        by simp [n1], ?_, ?_⟩
      · intro x hx
        rcases List.mem_cons.1 hx with rfl | hx
        · exact h1.p0
        · exact n2 x hx
      · simp [n3, order, List.filter_append, hc]
  obtain ⟨a2, a3, a4, new, n1, n2, n3⟩ := h2 _ rfl
  obtain ⟨b1, b2, b3⟩ := waits ((List.range k).filter (· ≠ cur))
    (q1.issues (if has cur then [.work 0 cur] else []))
  refine ⟨new, (((q1.issues (if has cur then [.work 0 cur] else [])).issues
    (((List.range k).filter (· ≠ cur)).map fun d => .wait 0 (d + 1))).past 0), ?_, ?_, n2, ?_, ?_⟩
  · simp only [Q.issues, List.foldl_cons, List.foldl_nil, Q.issue]
    simp only [Q.issues] at b3 n1
    rw [b3, n1]
  · rw [n3]
    exact (List.reverse_perm _).trans ((order_perm hc).filter has)
  · intro x hx hh
    by_cases hxc : x = cur
    · subst hxc
      exact b1 _ (a4 hh)
    · have hm : x ∈ (List.range k).filter (· ≠ cur) := List.mem_filter.2 ⟨List.mem_range.2 hx, by simpa using hxc⟩
      exact b2 x hm x (by rw [a3]; exact h1.ev x (List.mem_filter.2 ⟨hm, hh⟩))
  · intro x hx
    exact b1 _ (a2 _ (h1.p0 hx))

/-! ## Non-trivial cases -/

/-- Three devices, ten indices, the second device is the current one. -/
example : multi u64 10 3 1 = .calls [0, 1, 2, 3, 7, 8, 9, 4, 5, 6] := by decide +kernel

example : single 3 = .calls [0, 1, 2] := by decide +kernel

example : ((({ past := fun s => if s = 0 then [77] else [] } : Q).issues (cmds (fun _ => true) 3 1 true ++ [.work 0 99])).log)
    = [(99, [2, 77, 0, 77, 1, 77]), (1, [77]), (2, [77]), (0, [77])] := by rfl

/-! ## Violations -/

/-- 2^32 + 5 iterations: five of them are executed and the operation completes with a value. -/
theorem C81_single_violation : single (2 ^ 32 + 5) = .calls [0, 1, 2, 3, 4] := by decide +kernel

/-- From 2^31 - 256 iterations on the number of blocks is computed with an overflow. -/
theorem C81_overflow_violation (n : Int) (h : 2 ^ 31 - 256 ≤ n) (h' : n < 2 ^ 31) : single n = .ub := by
  have h1 : i32.wrap n = n := i32_id (by omega) (by omega)
  have h2 : grid n = none := by
    rw [grid, h1, if_pos]
    simp [i32, IT.max]; omega
  rw [single, if_neg (by omega), h2]

/-- A shape of type `unsigned char`, 250, on two devices: the first 125 indices are visited twice. -/
theorem C81_multi_violation : multi ⟨8, false⟩ 250 2 0 =
    .calls ((List.range' 125 125 ++ List.range 125 ++ List.range 125).map fun t : Nat => (t : Int)) := by
  decide +kernel

/-- A shape of type `signed char`, 100, on one device: the function is called with negative indices, too. -/
theorem C81_negative_violation : multi ⟨8, true⟩ 100 1 0 =
    .calls ((List.range 100).map (fun t : Nat => (t : Int)) ++ (List.range 128).map fun t : Nat => (t : Int) - 128) := by
  decide +kernel

end Verif.NvBulk
