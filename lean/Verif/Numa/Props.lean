import Verif.Numa.Model
import Mathlib.Data.Nat.ModEq
import Mathlib.Data.List.Nodup
import Mathlib.Data.List.Perm.Subperm

namespace Verif.Numa

/-! ### Specification -/

/-- The node of each processor of the machine, in the order of the nodes. -/
def cpuNodes : List Nat → Nat → List Nat
  | [], _ => []
  | c :: r, k => List.replicate c k ++ cpuNodes r (k + 1)

/-- The threads on allowed nodes; all threads if there is none. -/
def allowed (p : Pool) (mask : Nat → Bool) : List Nat :=
  let l := (List.range p.count).filter fun t => mask (p.node t)
  if l = [] then List.range p.count else l

/-! ### The policy -/

theorem totals_getLast (cpus : List Nat) (t : Nat) : (totals cpus t).getLast?.getD t = t + cpus.sum := by
  induction cpus generalizing t with
  | nil => simp [totals]
  | cons c r ih =>
    have := ih (t + c)
    simp only [totals, List.sum_cons]
    cases h : totals r (t + c) with
    | nil => rw [h] at this; simp at this; simp; omega
    | cons a l => rw [h] at this; rw [List.getLast?_cons_cons]; simp [List.getLast?_cons] at this ⊢; omega

theorem cpuNodes_length (cpus : List Nat) (k : Nat) : (cpuNodes cpus k).length = cpus.sum := by
  induction cpus generalizing k with
  | nil => rfl
  | cons c r ih => simp [cpuNodes, ih]

theorem find_spec (cpus : List Nat) (t k i : Nat) (h0 : t ≤ i) (h : i < t + cpus.sum) :
    (cpuNodes cpus k)[i - t]? = some (k + (totals cpus t).findIdx fun x => decide (i < x)) := by
  induction cpus generalizing t k with
  | nil => simp at h; omega
  | cons c r ih =>
    simp only [List.sum_cons] at h
    simp only [cpuNodes, totals, List.findIdx_cons]
    by_cases e : i < t + c
    · rw [List.getElem?_append_left (by simp; omega)]
      simp [e, List.getElem?_replicate]; omega
    · rw [List.getElem?_append_right (by simp; omega)]
      have := ih (t + c) (k + 1) (by omega) (by omega)
      simp only [List.length_replicate]
      rw [show i - t - c = i - (t + c) by omega, this]
      simp [e]; omega

theorem toNode_eq (cpus : List Nat) (h : 0 < cpus.sum) (idx : Nat) : toNode cpus idx = (cpuNodes cpus 0)[idx % cpus.sum]? := by
  have hl := totals_getLast cpus 0
  have hf := find_spec cpus 0 0 (idx % cpus.sum) (Nat.zero_le _) (by have := Nat.mod_lt idx h; omega)
  unfold toNode
  cases hg : (totals cpus 0).getLast? with
  | none => rw [hg] at hl; simp at hl; omega
  | some n =>
    rw [hg] at hl
    simp at hl
    cases n with
    | zero => omega
    | succ n =>
      simp only
      rw [Nat.sub_zero] at hf
      rw [hf, hl]; simp

/-- The default policy gives thread number `i` the node of processor number `i`, starting again when all processors have a thread. -/
theorem C100_policy (cpus : List Nat) (h : 0 < cpus.sum) (i : Nat) : toNode cpus i = (cpuNodes cpus 0)[i % cpus.sum]? ∧ i % cpus.sum < (cpuNodes cpus 0).length :=
  ⟨toNode_eq cpus h i, by rw [cpuNodes_length]; exact Nat.mod_lt _ h⟩

theorem count_ge (cpus : List Nat) (k j : Nat) (h : j < k) : (cpuNodes cpus k).count j = 0 := by
  induction cpus generalizing k with
  | nil => rfl
  | cons c r ih => simp [cpuNodes, List.count_append, ih (k + 1) (by omega), List.count_replicate]; omega

theorem count_nodes (cpus : List Nat) (k j : Nat) : (cpuNodes cpus k).count (k + j) = cpus[j]?.getD 0 := by
  induction cpus generalizing k j with
  | nil => simp [cpuNodes]
  | cons c r ih =>
    simp only [cpuNodes, List.count_append, List.count_replicate]
    cases j with
    | zero => simp [count_ge]
    | succ j => have := ih (k + 1) j; rw [show k + 1 + j = k + (j + 1) by omega] at this; rw [this]; simp

/-- As many threads as there are processors: every node has as many of them as it has processors, and no other node has any. -/
theorem C100_policy_count (cpus : List Nat) (h : 0 < cpus.sum) (k : Nat) :
    ((List.range cpus.sum).filter fun i => toNode cpus i == some k).length = cpus[k]?.getD 0 := by
  rw [← count_nodes cpus 0 k, Nat.zero_add]
  have e : (List.range cpus.sum).map (toNode cpus) = (cpuNodes cpus 0).map some := by
    apply List.ext_getElem?
    intro i
    simp only [List.getElem?_map]
    by_cases hi : i < cpus.sum
    · rw [List.getElem?_range hi]
      simp only [Option.map_some]
      rw [toNode_eq cpus h, Nat.mod_eq_of_lt hi]
      rw [List.getElem?_eq_getElem (by rw [cpuNodes_length]; exact hi)]; rfl
    · rw [List.getElem?_eq_none (by simp; omega), List.getElem?_eq_none (by rw [cpuNodes_length]; omega)]; rfl
  have e2 : (cpuNodes cpus 0).count k = ((cpuNodes cpus 0).map some).count (some k) := by
    rw [List.count, List.count, List.countP_map]
    congr 1
  rw [e2, ← e, List.count, List.countP_map, List.countP_eq_length_filter]
  rfl

/-- The default policy names nodes that exist and have processors. -/
theorem C100_policy_range (cpus : List Nat) (h : 0 < cpus.sum) (i : Nat) :
    ∃ k, toNode cpus i = some k ∧ k < cpus.length ∧ 0 < cpus[k]?.getD 0 := by
  obtain ⟨h1, h2⟩ := C100_policy cpus h i
  rw [List.getElem?_eq_getElem h2] at h1
  refine ⟨_, h1, ?_⟩
  have h3 : 0 < (cpuNodes cpus 0).count ((cpuNodes cpus 0)[i % cpus.sum]) := List.count_pos_iff.mpr (List.getElem_mem h2)
  have h4 := count_nodes cpus 0 ((cpuNodes cpus 0)[i % cpus.sum])
  rw [Nat.zero_add] at h4
  rw [h4] at h3
  refine ⟨?_, h3⟩
  rcases Nat.lt_or_ge ((cpuNodes cpus 0)[i % cpus.sum]) cpus.length with hl | hl
  · exact hl
  · rw [List.getElem?_eq_none hl] at h3; simp at h3

/-- Without processors the policy divides by zero. -/
theorem C100_policy_zero (cpus : List Nat) (h : cpus.sum = 0) (i : Nat) : toNode cpus i = none := by
  have hl := totals_getLast cpus 0
  unfold toNode
  cases hg : (totals cpus 0).getLast? with
  | none => rfl
  | some n => rw [hg] at hl; simp [h] at hl; rw [hl]

example : (List.range 9).map (toNode [2, 0, 3]) = [some 0, some 0, some 2, some 2, some 2, some 0, some 0, some 2, some 2] := by decide +kernel

/-! ### The table -/

theorem cut {l : List (Nat × Nat)} (hs : l.Pairwise fun a b => a.1 ≤ b.1) (P : Nat × Nat → Bool)
    (hP : ∀ a b : Nat × Nat, a.1 ≤ b.1 → P a = true → P b = true) :
    l.drop (l.findIdx P) = l.filter P ∧ l.findIdx P = (l.filter fun e => !P e).length ∧ l.take (l.findIdx P) = l.filter fun e => !P e := by
  induction l with
  | nil => simp
  | cons a r ih =>
    rw [List.pairwise_cons] at hs
    obtain ⟨i1, i2, i3⟩ := ih hs.2
    by_cases h : P a = true
    · have hall : ∀ b ∈ r, P b = true := fun b hb => hP a b (hs.1 b hb) h
      have e1 : r.filter P = r := List.filter_eq_self.mpr hall
      have e2 : r.filter (fun e => !P e) = [] := List.filter_eq_nil_iff.mpr fun b hb => by simp [hall b hb]
      simp [List.findIdx_cons, h, e1, e2]
    · simp only [Bool.not_eq_true] at h
      simp [List.findIdx_cons, h, i1, i3]
      exact i2

theorem drop_lower {l : List (Nat × Nat)} (hs : l.Pairwise fun a b => a.1 ≤ b.1) (k : Nat) :
    l.drop (lower l k) = l.filter fun e => decide (k ≤ e.1) :=
  (cut hs _ fun a b h => by simp only [decide_eq_true_eq]; omega).1

theorem on_eq {l : List (Nat × Nat)} (k : Nat) :
    ((l.filter fun e => decide (k ≤ e.1)).filter fun e => !decide (k < e.1)) = l.filter fun e => e.1 == k := by
  rw [List.filter_filter]
  congr 1
  funext e
  rcases Nat.lt_trichotomy e.1 k with h | h | h
  · have : ¬ k ≤ e.1 := by omega
    have h2 : e.1 ≠ k := by omega
    simp [this, h2]
  · simp [h]
  · have h2 : e.1 ≠ k := by omega
    simp [h, h2]

theorem numOn_eq {l : List (Nat × Nat)} (hs : l.Pairwise fun a b => a.1 ≤ b.1) (k : Nat) : numOn l k = (l.filter fun e => e.1 == k).length := by
  have hd := drop_lower hs k
  have hs2 : (l.filter fun e => decide (k ≤ e.1)).Pairwise fun a b => a.1 ≤ b.1 := hs.filter _
  have hc := (cut hs2 (fun e => decide (k < e.1)) fun a b h => by simp only [decide_eq_true_eq]; omega).2.1
  rw [on_eq] at hc
  unfold numOn
  split
  · rename_i e
    rw [e, List.drop_length] at hd
    rw [← on_eq, ← hd]; rfl
  · rw [hd, hc]

theorem getIdx_eq {l : List (Nat × Nat)} (hs : l.Pairwise fun a b => a.1 ≤ b.1) (k j : Nat) (hj : j < numOn l k) :
    getIdx l k j = (l.filter fun e => e.1 == k)[j]?.map (·.2) := by
  have hd := drop_lower hs k
  have hs2 : (l.filter fun e => decide (k ≤ e.1)).Pairwise fun a b => a.1 ≤ b.1 := hs.filter _
  obtain ⟨_, hc, ht⟩ := cut hs2 (fun e => decide (k < e.1)) fun a b h => by simp only [decide_eq_true_eq]; omega
  rw [on_eq] at hc ht
  rw [numOn_eq hs, ← hc] at hj
  unfold getIdx
  rw [← ht, List.getElem?_take_of_lt hj, ← hd, List.getElem?_drop]

/-- The entries of the allowed nodes below `n` from `k`. -/
def sel (l : List (Nat × Nat)) (mask : Nat → Bool) : Nat → Nat → List (Nat × Nat)
  | 0, _ => []
  | n + 1, k => (if mask k then l.filter (fun e => e.1 == k) else []) ++ sel l mask n (k + 1)

theorem pickLoop_eq {l : List (Nat × Nat)} (hs : l.Pairwise fun a b => a.1 ≤ b.1) (mask : Nat → Bool) (n k t : Nat) (ht : t < (sel l mask n k).length) :
    pickLoop l mask n k t = (sel l mask n k)[t]?.map (·.2) := by
  induction n generalizing k t with
  | zero => simp [sel] at ht
  | succ n ih =>
    simp only [sel, pickLoop] at ht ⊢
    by_cases hm : mask k = true
    · simp only [hm, if_true] at ht ⊢
      have hn := numOn_eq hs k
      by_cases h : t < numOn l k
      · simp only [h, if_true]
        rw [getIdx_eq hs k t h, List.getElem?_append_left (by omega)]
      · simp only [h, if_false]
        rw [List.length_append] at ht
        rw [ih (k + 1) (t - numOn l k) (by omega), List.getElem?_append_right (by omega), hn]
    · simp only [hm, if_false, List.nil_append, Bool.false_eq_true] at ht ⊢
      exact ih (k + 1) t ht

theorem sel_snoc (l : List (Nat × Nat)) (mask : Nat → Bool) (n k : Nat) :
    sel l mask (n + 1) k = sel l mask n k ++ if mask (k + n) then l.filter (fun e => e.1 == k + n) else [] := by
  induction n generalizing k with
  | zero => simp [sel]
  | succ n ih =>
    rw [sel, ih (k + 1), sel, List.append_assoc]
    rw [show k + 1 + n = k + (n + 1) by omega]

theorem sel_perm (l : List (Nat × Nat)) (mask : Nat → Bool) (n : Nat) : (sel l mask n 0).Perm (l.filter fun e => decide (e.1 < n) && mask e.1) := by
  induction n with
  | zero => simp [sel]
  | succ n ih =>
    rw [sel_snoc, Nat.zero_add]
    have h := List.filter_append_perm (fun e : Nat × Nat => decide (e.1 < n)) (l.filter fun e => decide (e.1 < n + 1) && mask e.1)
    rw [List.filter_filter, List.filter_filter] at h
    refine List.Perm.trans ?_ h
    refine List.Perm.append ?_ ?_
    · refine ih.trans (List.Perm.of_eq ?_)
      congr 1; funext e
      by_cases he : e.1 < n
      · have : e.1 < n + 1 := by omega
        simp [he, this]
      · simp [he]
    · refine List.Perm.of_eq ?_
      by_cases hm : mask n = true
      · simp only [hm, if_true]
        congr 1; funext e
        rcases Nat.lt_trichotomy e.1 n with h1 | h1 | h1
        · have h2 : e.1 ≠ n := by omega
          simp [h1, h2]
        · simp [h1, hm]
        · have h2 : e.1 ≠ n := by omega
          have h3 : ¬ e.1 < n + 1 := by omega
          simp [h2, h3]
      · simp only [hm, if_false, Bool.false_eq_true]
        symm; rw [List.filter_eq_nil_iff]
        intro e _ hh
        simp only [Bool.and_eq_true, Bool.not_eq_true', decide_eq_false_iff_not, decide_eq_true_eq] at hh
        have : e.1 = n := by omega
        rw [this] at hh; exact hm hh.2.2

theorem countLoop_eq {l : List (Nat × Nat)} (hs : l.Pairwise fun a b => a.1 ≤ b.1) (mask : Nat → Bool) (n : Nat) : countLoop l mask n = (sel l mask n 0).length := by
  induction n with
  | zero => rfl
  | succ n ih =>
    rw [sel_snoc, Nat.zero_add, countLoop, ih, List.length_append, numOn_eq hs]
    split <;> simp

theorem le_last {l : List (Nat × Nat)} (hs : l.Pairwise fun a b => a.1 ≤ b.1) (e : Nat × Nat) (he : e ∈ l) : e.1 ≤ (l.getLast?.map (·.1)).getD 0 := by
  induction l generalizing e with
  | nil => cases he
  | cons a r ih =>
    rw [List.pairwise_cons] at hs
    cases r with
    | nil => simp at he; subst he; simp
    | cons b r' =>
      rw [List.getLast?_cons_cons]
      rcases List.mem_cons.mp he with rfl | h
      · have h1 := hs.1 b (by simp)
        have h2 := ih hs.2 b (by simp)
        omega
      · exact ih hs.2 e h

theorem numAllowed_eq {l : List (Nat × Nat)} (hs : l.Pairwise fun a b => a.1 ≤ b.1) (mask : Nat → Bool) :
    numAllowed l mask = (l.filter fun e => mask e.1).length := by
  rw [numAllowed, countLoop_eq hs, (sel_perm l mask _).length_eq]
  congr 1
  apply List.filter_congr
  intro e he
  have := le_last hs e he
  have h2 : e.1 < (l.getLast?.map (·.1)).getD 0 + 1 := by omega
  simp [h2]

/-! ### Rounds -/

theorem round (n s : Nat) : ((List.range n).map fun i => (s + i) % n).Perm (List.range n) := by
  rcases Nat.eq_zero_or_pos n with h | h
  · subst h; simp
  have hnd : ((List.range n).map fun i => (s + i) % n).Nodup := by
    refine List.Nodup.map_on ?_ List.nodup_range
    intro x hx y hy hxy
    simp only [List.mem_range] at hx hy
    have h1 : x ≡ y [MOD n] := Nat.ModEq.add_left_cancel' s hxy
    unfold Nat.ModEq at h1
    rwa [Nat.mod_eq_of_lt hx, Nat.mod_eq_of_lt hy] at h1
  refine (List.subperm_of_subset hnd ?_).perm_of_length_le (by simp)
  intro x hx
  simp only [List.mem_map, List.mem_range] at hx ⊢
  obtain ⟨i, _, rfl⟩ := hx
  exact Nat.mod_lt _ h

theorem calls_eq (p : Pool) (mask : Nat → Bool) (s k : Nat) (h : s + k < 2 ^ 64) :
    calls p mask s k = (List.range k).map fun i => pick p mask (s + 1 + i) := by
  induction k generalizing s with
  | zero => rfl
  | succ k ih =>
    rw [calls, Nat.mod_eq_of_lt (by omega), ih (s + 1) (by omega), List.range_succ_eq_map, List.map_cons, List.map_map]
    refine congrArg _ (List.map_congr_left fun i _ => ?_)
    simp only [Function.comp]
    rw [show s + 1 + 1 + i = s + 1 + (i + 1) by omega]

/-- The threads of the allowed entries. -/
theorem sel_threads {p : Pool} (hp : p.Made) (hn : ∀ i, i < p.count → p.node i < p.nodes) (mask : Nat → Bool) :
    ((sel p.tab mask p.nodes 0).map (·.2)).Perm ((List.range p.count).filter fun t => mask (p.node t)) := by
  refine ((sel_perm p.tab mask p.nodes).map _).trans ?_
  refine ((hp.all.filter _).map _).trans (List.Perm.of_eq ?_)
  rw [List.filter_map, List.map_map]
  have : ((fun x : Nat × Nat => x.2) ∘ fun i => (p.node i, i)) = id := by funext i; rfl
  rw [this, List.map_id]
  apply List.filter_congr
  intro i hi
  simp [hn i (List.mem_range.mp hi)]

theorem allowed_num {p : Pool} (hp : p.Made) (mask : Nat → Bool) :
    numAllowed p.tab mask = ((List.range p.count).filter fun t => mask (p.node t)).length := by
  rw [numAllowed_eq hp.sorted, (hp.all.filter _).length_eq, List.filter_map, List.length_map]
  rfl

/-- One round of calls. -/
theorem picks {p : Pool} (hp : p.Made) (hn : ∀ i, i < p.count → p.node i < p.nodes) (mask : Nat → Bool) (s : Nat) :
    ((List.range (allowed p mask).length).map fun i => pick p mask (s + i)).Perm ((allowed p mask).map some) := by
  have hc := allowed_num hp mask
  have ht := sel_threads hp hn mask
  by_cases h0 : ((List.range p.count).filter fun t => mask (p.node t)) = []
  · have hz : numAllowed p.tab mask = 0 := by rw [hc, h0]; rfl
    simp only [allowed, h0, if_true, List.length_range, pick, hz]
    have := (round p.count s).map some
    rwa [List.map_map] at this
  · have hz : numAllowed p.tab mask ≠ 0 := by
      rw [hc]; intro e; exact h0 (List.eq_nil_of_length_eq_zero e)
    have hlen : (sel p.tab mask p.nodes 0).length = numAllowed p.tab mask := by
      rw [hc, ← ht.length_eq, List.length_map]
    simp only [allowed, h0, if_false]
    rw [← hc]
    have hpick : ∀ i, pick p mask (s + i) = ((sel p.tab mask p.nodes 0).map (·.2))[(s + i) % numAllowed p.tab mask]? := fun i => by
      simp only [pick, hz, if_false]
      rw [pickLoop_eq hp.sorted mask p.nodes 0 _ (by rw [hlen]; exact Nat.mod_lt _ (by omega)), List.getElem?_map]
    have e : ((List.range (numAllowed p.tab mask)).map fun i => pick p mask (s + i)) =
        ((List.range (numAllowed p.tab mask)).map fun i => (s + i) % numAllowed p.tab mask).map
          fun t => ((sel p.tab mask p.nodes 0).map (·.2))[t]? := by
      rw [List.map_map]; exact List.map_congr_left fun i _ => hpick i
    rw [e]
    refine ((round _ s).map _).trans ?_
    refine List.Perm.trans (List.Perm.of_eq ?_) (ht.map some)
    apply List.ext_getElem?
    intro i
    simp only [List.getElem?_map]
    by_cases hi : i < numAllowed p.tab mask
    · rw [List.getElem?_range hi]
      simp only [Option.map_some]
      rw [List.getElem?_eq_getElem (by rw [hlen]; exact hi)]; rfl
    · rw [List.getElem?_eq_none (by simp; omega), List.getElem?_eq_none (by omega)]; rfl

/-- In turn: of as many calls in a row as there are threads on allowed nodes, each of these threads gets exactly one; if there is no thread on
an allowed node, each thread of the pool does. -/
theorem C100_turns (p : Pool) (hp : p.Made) (hn : ∀ i, i < p.count → p.node i < p.nodes) (mask : Nat → Bool) (s : Nat)
    (hs : s + (allowed p mask).length < 2 ^ 64) : (calls p mask s (allowed p mask).length).Perm ((allowed p mask).map some) := by
  rw [calls_eq p mask s _ hs]; exact picks hp hn mask (s + 1)

theorem allowed_ne {p : Pool} (hp : p.Made) (mask : Nat → Bool) : 0 < (allowed p mask).length := by
  unfold allowed
  dsimp only
  split
  · rw [List.length_range]; exact hp.pos
  · rename_i h; exact List.length_pos_of_ne_nil h

theorem pick_mem {p : Pool} (hp : p.Made) (hn : ∀ i, i < p.count → p.node i < p.nodes) (mask : Nat → Bool) (s : Nat) :
    ∃ t ∈ allowed p mask, pick p mask s = some t := by
  have h := picks hp hn mask s
  have h1 : pick p mask s ∈ ((List.range (allowed p mask).length).map fun i => pick p mask (s + i)) :=
    List.mem_map.mpr ⟨0, List.mem_range.mpr (allowed_ne hp mask), rfl⟩
  have h2 := h.mem_iff.mp h1
  obtain ⟨t, ht, e⟩ := List.mem_map.mp h2
  exact ⟨t, ht, e.symm⟩

/-- A task is given to a thread of the pool, and to one on an allowed node if the pool has any; a pool thread on an allowed node keeps its
own tasks. -/
theorem C100_enqueue (p : Pool) (hp : p.Made) (hn : ∀ i, i < p.count → p.node i < p.nodes) (mask : Nat → Bool) (caller : Option Nat) (s : Nat) :
    ∃ t, route p mask caller s = some t ∧ t < p.count ∧ ((∃ i, i < p.count ∧ mask (p.node i) = true) → mask (p.node t) = true) ∧
      ∀ i, caller = some i → i < p.count → mask (p.node i) = true → t = i := by
  have key : ∀ t, t ∈ allowed p mask → t < p.count ∧ ((∃ i, i < p.count ∧ mask (p.node i) = true) → mask (p.node t) = true) := by
    intro t ht
    unfold allowed at ht
    dsimp only at ht
    split at ht
    · rename_i h0
      refine ⟨List.mem_range.mp ht, fun ⟨i, hi, hm⟩ => ?_⟩
      have := List.filter_eq_nil_iff.mp h0 i (List.mem_range.mpr hi)
      exact absurd hm this
    · obtain ⟨h1, h2⟩ := List.mem_filter.mp ht
      exact ⟨List.mem_range.mp h1, fun _ => h2⟩
  obtain ⟨t, ht, e⟩ := pick_mem hp hn mask ((s + 1) % 2 ^ 64)
  cases caller with
  | none => exact ⟨t, e, (key t ht).1, (key t ht).2, fun i hi => by cases hi⟩
  | some i =>
    by_cases hi : i < p.count ∧ mask (p.node i) = true
    · exact ⟨i, by simp only [route, hi, and_self, if_true], hi.1, fun _ => hi.2, fun l hl _ _ => by cases hl; rfl⟩
    · exact ⟨t, by simp only [route, hi, if_false]; exact e, (key t ht).1, (key t ht).2, fun l hl h1 h2 => by cases hl; exact absurd ⟨h1, h2⟩ hi⟩

/-- Whatever the policy says, a task is given to a thread of the pool: also if it reports fewer nodes than it uses. -/
theorem C100_enqueue_any (p : Pool) (hp : p.Made) (mask : Nat → Bool) (caller : Option Nat) (s : Nat) :
    ∃ t, route p mask caller s = some t ∧ t < p.count := by
  have hb : ∀ e ∈ p.tab, e.2 < p.count := fun e he => by
    have := hp.all.mem_iff.mp he
    obtain ⟨i, hi, rfl⟩ := List.mem_map.mp this
    exact List.mem_range.mp hi
  have hlen : p.tab.length = p.count := by rw [hp.all.length_eq]; simp
  have hloop : ∀ n k t, t < p.count → ∃ r, pickLoop p.tab mask n k t = some r ∧ r < p.count := by
    intro n
    induction n with
    | zero => exact fun k t ht => ⟨t, rfl, ht⟩
    | succ n ih =>
      intro k t ht
      simp only [pickLoop]
      split
      · split
        · rename_i hlt
          rw [getIdx_eq hp.sorted k t hlt]
          rw [numOn_eq hp.sorted] at hlt
          rw [List.getElem?_eq_getElem hlt]
          exact ⟨_, rfl, hb _ (List.mem_filter.mp (List.getElem_mem hlt)).1⟩
        · exact ih _ _ (by omega)
      · exact ih _ _ ht
  have hpick : ∀ s, ∃ t, pick p mask s = some t ∧ t < p.count := by
    intro s
    have hle : numAllowed p.tab mask ≤ p.count := by
      rw [numAllowed_eq hp.sorted, ← hlen]; exact List.length_filter_le _ _
    simp only [pick]
    split
    · exact ⟨_, rfl, Nat.mod_lt _ hp.pos⟩
    · exact hloop _ _ _ (Nat.lt_of_lt_of_le (Nat.mod_lt _ (by omega)) hle)
  cases caller with
  | none => exact hpick _
  | some i =>
    simp only [route]
    split
    · rename_i h; exact ⟨i, rfl, h.1⟩
    · exact hpick _

/-! ### Victims -/

theorem victimLoop_eq (p : Pool) (i : Nat) (l near all : List Nat) :
    victimLoop p i l (near, all) =
      (near ++ l.filter (fun v => decide (v ≠ i) && decide (p.node v = p.node i)), all ++ l.filter fun v => decide (v ≠ i)) := by
  induction l generalizing near all with
  | nil => simp [victimLoop]
  | cons v l ih =>
    simp only [victimLoop]
    by_cases h : v = i
    · simp only [h, if_true]; rw [ih]; simp
    · simp only [h, if_false]; rw [ih]
      by_cases h2 : p.node v = p.node i
      · simp [h, h2]
      · simp [h, h2]

/-- A thread steals from every other thread of the pool, and first from those on its node; it is in no list twice and never its own victim. -/
theorem C100_victims (p : Pool) (i : Nat) :
    (∀ v, v ∈ (victims p i).2 ↔ v < p.count ∧ v ≠ i) ∧ (∀ v, v ∈ (victims p i).1 ↔ v < p.count ∧ v ≠ i ∧ p.node v = p.node i) ∧
    (victims p i).1.Nodup ∧ (victims p i).2.Nodup := by
  simp only [victims, victimLoop_eq, List.nil_append]
  refine ⟨fun v => by simp, fun v => by simp, List.nodup_range.filter _, List.nodup_range.filter _⟩

/-! ### Examples -/

/-- Five threads on a machine with two processors on node 0 and three on node 2. -/
def five : Pool := ⟨5, fun i => if i < 2 then 0 else 2, 3, [(0, 1), (0, 0), (2, 3), (2, 4), (2, 2)]⟩

theorem five_made : five.Made := ⟨by decide, by decide +kernel, by decide +kernel⟩

example : ∀ i, i < five.count → toNode [2, 0, 3] i = some (five.node i) := by decide +kernel

example : calls five (fun n => n == 2) 7 4 = [some 2, some 3, some 4, some 2] := by decide +kernel
example : route five (fun n => n == 2) (some 4) 7 = some 4 := by decide +kernel
example : route five (fun n => n == 2) (some 0) 7 = some 2 := by decide +kernel
/-- Node 1 has no threads. -/
example : calls five (fun n => n == 1) 7 3 = [some 3, some 4, some 0] := by decide +kernel
example : victims five 3 = ([2, 4], [0, 1, 2, 4]) := by decide +kernel

end Verif.Numa
