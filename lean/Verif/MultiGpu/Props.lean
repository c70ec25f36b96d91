import Verif.MultiGpu.Model
/-!
# C110: what a user of the multi-GPU context relies on

The specification: `Wanted` says which pairs of devices are to have access, of the machine alone.
-/
namespace Verif.MultiGpu

/-- Device `d` is to have access to the memory of device `p`. -/
def Wanted (m : Machine) (d p : Nat) : Prop := d < m.devices ∧ p < m.devices ∧ d ≠ p ∧ m.reach d p = true

/-- The completions among the events. -/
def completions : List Ev → List Ev
  | [] => []
  | .value :: l => .value :: completions l
  | .error c :: l => .error c :: completions l
  | _ :: l => completions l

theorem peers_current (m : Machine) (d n p : Nat) (r : Rt) : (peers m d n p r).current = r.current := by
  induction n generalizing p r with
  | zero => rfl
  | succ n ih =>
    rw [peers, ih]
    by_cases h1 : p ≠ d <;> by_cases h2 : m.reach d p = true <;> simp [h1, h2, enablePeer]

theorem peers_requested (m : Machine) (d n p : Nat) (r : Rt) (h : r.current = d) :
    (peers m d n p r).requested =
      r.requested ++ ((List.range' p n).filter fun q => decide (q ≠ d) && m.reach d q).map fun q => (d, q) := by
  induction n generalizing p r with
  | zero => simp [peers]
  | succ n ih =>
    rw [peers, List.range'_succ]
    by_cases h1 : p ≠ d
    · by_cases h2 : m.reach d p = true
      · rw [if_pos h1, if_pos h2, ih _ _ (by simp [enablePeer, h])]
        simp [enablePeer, h, h1, h2]
      · rw [if_pos h1, if_neg h2, ih _ _ h]
        simp [h1, h2]
    · rw [if_neg h1, ih _ _ h]
      simp [h1]

theorem count_map_pair (x y : Nat) (l : List Nat) : (l.map fun q => (x, q)).count (x, y) = l.count y := by
  induction l with
  | nil => rfl
  | cons a l ih => simp [List.count_cons, ih]

theorem devices_requested (m : Machine) (hok : ∀ d, d < m.devices → m.setOk d = true) (n d : Nat) (hd : d + n ≤ m.devices) (r : Rt)
    (x y : Nat) :
    (devices m n d r).requested.count (x, y) =
      r.requested.count (x, y) +
        (if d ≤ x ∧ x < d + n ∧ y < m.devices ∧ x ≠ y ∧ m.reach x y = true then 1 else 0) := by
  induction n generalizing d r with
  | zero => simp [devices]; omega
  | succ n ih =>
    have hs : (setDevice m d r) = { r with current := d } := by simp [setDevice, hok d (by omega)]
    rw [devices, ih _ (by omega), hs, peers_requested m d _ _ _ rfl, List.count_append]
    have key : (((List.range' 0 m.devices).filter fun q => decide (q ≠ d) && m.reach d q).map fun q => (d, q)).count (x, y)
        = if x = d ∧ y < m.devices ∧ x ≠ y ∧ m.reach x y = true then 1 else 0 := by
      by_cases hx : x = d
      · subst hx
        rw [count_map_pair]
        by_cases hc : (decide (y ≠ x) && m.reach x y) = true
        · rw [List.count_filter (by exact hc)]
          have hc' : y ≠ x ∧ m.reach x y = true := by simpa using hc
          have hne : ¬ x = y := fun e => hc'.1 e.symm
          by_cases hy : y < m.devices
          · have hmem : y ∈ List.range' 0 m.devices := by simp [List.mem_range'_1, hy]
            rw [List.Nodup.count List.nodup_range', if_pos hmem]
            simp [hy, hc'.2, hne]
          · have hmem : y ∉ List.range' 0 m.devices := by simp [List.mem_range'_1]; omega
            rw [List.count_eq_zero_of_not_mem hmem]
            simp [hy]
        · have hmem : y ∉ (List.range' 0 m.devices).filter fun q => decide (q ≠ x) && m.reach x q := by
            simp only [List.mem_filter]; exact fun h => hc h.2
          rw [List.count_eq_zero_of_not_mem hmem]
          have : ¬ (x ≠ y ∧ m.reach x y = true) := by
            intro h; apply hc; simp [h.2]; exact fun e => h.1 e.symm
          rw [if_neg]; exact fun h => this h.2.2
      · rw [List.count_eq_zero_of_not_mem, if_neg]
        · exact fun h => hx h.1
        · simp only [List.mem_map, not_exists, not_and]
          intro q _ e
          exact hx (by simpa using (congrArg Prod.fst e).symm)
    rw [key]
    by_cases h1 : x = d
    · subst h1
      have : ¬ (x + 1 ≤ x ∧ x < x + 1 + n ∧ y < m.devices ∧ x ≠ y ∧ m.reach x y = true) := by omega
      rw [if_neg this]
      have : x < x + (n + 1) := by omega
      simp [this]
    · rw [if_neg (show ¬ (x = d ∧ y < m.devices ∧ x ≠ y ∧ m.reach x y = true) from fun h => h1 h.1)]
      have e : (d + 1 ≤ x ∧ x < d + 1 + n ∧ y < m.devices ∧ x ≠ y ∧ m.reach x y = true) ↔
          (d ≤ x ∧ x < d + (n + 1) ∧ y < m.devices ∧ x ≠ y ∧ m.reach x y = true) := by
        constructor <;> rintro ⟨a, b, c⟩ <;> exact ⟨by omega, by omega, c⟩
      simp only [e]
      omega

/-- **C110, part.** If every device can be made the current one, then after a context has been made exactly those pairs of devices that
    can reach one another are asked for, each once, for any number of devices. -/
theorem C110_peers_partial (m : Machine) (cur : Nat) (hok : ∀ d, d < m.devices → m.setOk d = true) (d p : Nat) :
    ((d, p) ∈ (construct m cur).requested ↔ Wanted m d p) ∧ (construct m cur).requested.count (d, p) ≤ 1 := by
  have hg : (construct m cur).requested = (devices m m.devices 0 ⟨cur, []⟩).requested := by
    simp only [construct, setDevice]; split <;> rfl
  have hc := devices_requested m hok m.devices 0 (by omega) ⟨cur, []⟩ d p
  rw [hg]
  constructor
  · rw [← List.count_pos_iff, hc]
    simp only [Wanted]
    split
    · rename_i h; simp at h; simp; exact ⟨h.1, h.2.1, h.2.2.1, h.2.2.2⟩
    · rename_i h; simp at h; simp; exact h
  · rw [hc]; simp; split <;> omega

/-- **C110.** The device that was current before the context was made is current afterwards, whatever fails in between, unless
    making it current again fails. -/
theorem C110_current_device (m : Machine) (cur : Nat) (h : m.setOk cur = true) : (construct m cur).current = cur := by
  simp [construct, setDevice, h]

/-- **C110, the code's behaviour.** If a device cannot be made the current one, the requests meant for it are made for the device before it:
    of three devices the second reaches the third, and cannot be made current; then access is asked for the first, which cannot reach the
    third, and not for the second. -/
theorem C110_failing_device_violated :
    ∃ m : Machine, Wanted m 1 2 ∧ ¬ Wanted m 0 2 ∧ (construct m 0).requested = [(0, 2)] := by
  refine ⟨⟨3, fun d p => d == 1 && p == 2, fun d => d != 1⟩, ?_, ?_, by decide⟩ <;> simp [Wanted]

/-- **C110.** Schedulers compare equal if and only if they belong to the same context and have the same priority. -/
theorem C110_scheduler_equality (a b : Sched) : same a b = true ↔ a.hub = b.hub ∧ a.priority = b.priority := by
  simp [same]

/-- **C110, part.** An operation that is started completes exactly once, with a value if its stream could be created and with the error
    otherwise, if the kernel that delivers it is accepted or none is needed. -/
theorem C110_completes_partial (w : World) (h : w.started = true) (hk : w.streamReceiver = true ∨ w.launchOk = true) :
    completions (run w) = [if w.create = 0 then .value else .error w.create] := by
  obtain ⟨c, s, l, st⟩ := w
  simp only at h hk
  subst h
  by_cases h0 : c = 0 <;> cases s <;> cases l <;> simp at hk <;> simp [run, start, finish, completions, h0]

/-- **C110.** An operation that is not started does not complete. -/
theorem C110_not_started (w : World) (h : w.started = false) : completions (run w) = [] := by
  obtain ⟨c, s, l, st⟩ := w
  simp only at h
  subst h
  by_cases h0 : c = 0 <;> simp [run, finish, completions, h0]

/-- **C110, part.** A stream that was created is destroyed, once and last. -/
theorem C110_stream_partial (w : World) (h : w.create = 0) :
    (run w).count .createStream = 1 ∧ (run w).count .destroyStream = 1 ∧ (run w).getLast? = some .destroyStream ∧
    Ev.assertion ∉ run w := by
  obtain ⟨c, s, l, st⟩ := w
  simp only at h
  subst h
  cases s <;> cases l <;> cases st <;> decide

/-- **C110, the code's behaviour.** If the stream could not be created, it is destroyed all the same: after the error has been delivered, and
    also if the operation is never started, the destructor fails its assertion. -/
theorem C110_stream_violated (w : World) (h : w.create ≠ 0) : Ev.assertion ∈ run w := by
  simp [run, finish, h]

/-- **C110, the code's behaviour.** If the kernel is refused, nobody looks and the receiver is never completed. -/
theorem C110_launch_violated (w : World) (h1 : w.streamReceiver = false) (h2 : w.launchOk = false) : completions (run w) = [] := by
  obtain ⟨c, s, l, st⟩ := w
  simp only at h1 h2
  subst h1 h2
  by_cases h0 : c = 0 <;> cases st <;> simp [run, start, finish, completions, h0]

/-! ### Concrete cases -/

/-- Three devices, of which the first two reach one another and the third reaches the first. -/
def three : Machine := ⟨3, fun d p => (d == 0 && p == 1) || (d == 1 && p == 0) || (d == 2 && p == 0), fun _ => true⟩

example : construct three 1 = ⟨1, [(0, 1), (1, 0), (2, 0)]⟩ := by decide
example : ∀ d, d < three.devices → three.setOk d = true := fun _ _ => rfl
example : Wanted three 2 0 := by unfold Wanted; decide
example : run ⟨0, false, true, true⟩ = [.createStream, .value, .destroyStream] := by decide
example : run ⟨2, true, true, true⟩ = [.error 2, .assertion] := by decide

end Verif.MultiGpu
