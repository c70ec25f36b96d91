import Verif.AsyncScope.Model
import Mathlib.Tactic.ByContra
/-! # `exec::async_scope`: the invariant -/
namespace Verif.AsyncScope

/-- Counted in `__active_`. -/
@[grind] def OPc.w : OPc → Nat
  | .running | .wantLock | .locked => 1
  | _ => 0

@[grind] def OPc.holds : OPc → Bool
  | .locked | .unlock _ => true
  | _ => false

@[grind] def WPc.holds : WPc → Bool
  | .locked | .unlockQ | .unlockE => true
  | _ => false

@[grind] def WPc.inList : WPc → Bool
  | .unlockQ | .queued => true
  | _ => false

/-- Found the scope empty, or started. -/
@[grind] def WPc.dec : WPc → Bool
  | .unlockE | .startOp | .started => true
  | _ => false

structure Inv (s : St) : Prop where
  ond : s.ops.Nodup
  om : ∀ i, i ∈ s.ops ↔ s.opc i ≠ .idle
  wm : ∀ j, j ∈ s.ws ↔ s.wpc j ≠ .idle
  act : s.active = lsum OPc.w s.opc s.ops
  lko : ∀ i, s.lock = some (.op i) ↔ (s.opc i).holds = true
  lkw : ∀ j, s.lock = some (.w j) ↔ (s.wpc j).holds = true
  wl : s.waiters ≠ [] → s.active ≠ 0
  wnd : s.waiters.Nodup
  wpc : ∀ j, j ∈ s.waiters → (s.wpc j).inList = true
  lnd : ∀ i, (s.loc i).Nodup
  lpc : ∀ i j, j ∈ s.loc i → (s.wpc j).inList = true ∧ j ∉ s.waiters
  ldj : ∀ i k j, j ∈ s.loc i → j ∈ s.loc k → i = k
  cov : ∀ j, (s.wpc j).inList = true → j ∈ s.waiters ∨ ∃ i, j ∈ s.loc i
  lop : ∀ i, s.loc i ≠ [] → s.opc i = .unlock true ∨ s.opc i = .notifying
  ulf : ∀ i, s.opc i = .unlock false → s.active ≠ 0
  ulq : ∀ j, s.wpc j = .unlockQ → j ∈ s.waiters
  st : ∀ j, s.opStarts j = if s.wpc j = .started then 1 else 0
  cl0 : ∀ j, s.clean j = true → s.active = 0
  clU : ∀ i j, s.clean j = true → s.opc i = .unlock true → j ∈ s.loc i
  dst : s.destroyed = true → (∀ i, (s.opc i).w = 0 ∧ (s.opc i).holds = false) ∧ (∀ j, s.wpc j = .idle ∨ s.wpc j = .started)
  uaf : s.uaf = false
  asf : s.assertFail = false
  bsub : ∀ j i, i ∈ s.before j → s.opc i ≠ .idle
  bef : ∀ j, (s.wpc j).dec = true ∨ (∃ i, j ∈ s.loc i) → ∀ i ∈ s.before j, (s.opc i).w = 0

/-- Split the goal into the invariant's fields and close those that are unaffected or only change at `i`. -/
macro "std" h:ident i:term:max : tactic => `(tactic| (
  constructor
  case' ond => (first | exact Inv.ond $h | (have hkp := Inv.ond $h; clear $h; grind) | skip)
  case' om => (first | exact Inv.om $h | (intro k; have hkp := Inv.om $h k; clear $h; by_cases hk : k = $i; (rw [hk] at hkp ⊢; first | (simp [upd_same, OPc.w, OPc.holds, WPc.holds, WPc.inList, WPc.dec] ; done) | grind | (simp [upd_same, OPc.w, OPc.holds, WPc.holds, WPc.inList, WPc.dec] at hkp ⊢; grind) | (simp_all [upd_same, OPc.w, OPc.holds, WPc.holds, WPc.inList, WPc.dec]; done)); (simp only [upd_other _ _ hk]; first | exact hkp | grind)) | (have hkp := Inv.om $h; clear $h; grind) | skip)
  case' wm => (first | exact Inv.wm $h | (intro k; have hkp := Inv.wm $h k; clear $h; by_cases hk : k = $i; (rw [hk] at hkp ⊢; first | (simp [upd_same, OPc.w, OPc.holds, WPc.holds, WPc.inList, WPc.dec] ; done) | grind | (simp [upd_same, OPc.w, OPc.holds, WPc.holds, WPc.inList, WPc.dec] at hkp ⊢; grind) | (simp_all [upd_same, OPc.w, OPc.holds, WPc.holds, WPc.inList, WPc.dec]; done)); (simp only [upd_other _ _ hk]; first | exact hkp | grind)) | (have hkp := Inv.wm $h; clear $h; grind) | skip)
  case' act => (first | exact Inv.act $h | (have hkp := Inv.act $h; clear $h; grind) | skip)
  case' lko => (first | exact Inv.lko $h | (intro k; have hkp := Inv.lko $h k; clear $h; by_cases hk : k = $i; (rw [hk] at hkp ⊢; first | (simp [upd_same, OPc.w, OPc.holds, WPc.holds, WPc.inList, WPc.dec] ; done) | grind | (simp [upd_same, OPc.w, OPc.holds, WPc.holds, WPc.inList, WPc.dec] at hkp ⊢; grind) | (simp_all [upd_same, OPc.w, OPc.holds, WPc.holds, WPc.inList, WPc.dec]; done)); (simp only [upd_other _ _ hk]; first | exact hkp | grind)) | (have hkp := Inv.lko $h; clear $h; grind) | skip)
  case' lkw => (first | exact Inv.lkw $h | (intro k; have hkp := Inv.lkw $h k; clear $h; by_cases hk : k = $i; (rw [hk] at hkp ⊢; first | (simp [upd_same, OPc.w, OPc.holds, WPc.holds, WPc.inList, WPc.dec] ; done) | grind | (simp [upd_same, OPc.w, OPc.holds, WPc.holds, WPc.inList, WPc.dec] at hkp ⊢; grind) | (simp_all [upd_same, OPc.w, OPc.holds, WPc.holds, WPc.inList, WPc.dec]; done)); (simp only [upd_other _ _ hk]; first | exact hkp | grind)) | (have hkp := Inv.lkw $h; clear $h; grind) | skip)
  case' wl => (first | exact Inv.wl $h | (have hkp := Inv.wl $h; clear $h; grind) | skip)
  case' wnd => (first | exact Inv.wnd $h | (have hkp := Inv.wnd $h; clear $h; grind) | skip)
  case' wpc => (first | exact Inv.wpc $h | (intro k; have hkp := Inv.wpc $h k; clear $h; by_cases hk : k = $i; (rw [hk] at hkp ⊢; first | (simp [upd_same, OPc.w, OPc.holds, WPc.holds, WPc.inList, WPc.dec] ; done) | grind | (simp [upd_same, OPc.w, OPc.holds, WPc.holds, WPc.inList, WPc.dec] at hkp ⊢; grind) | (simp_all [upd_same, OPc.w, OPc.holds, WPc.holds, WPc.inList, WPc.dec]; done)); (simp only [upd_other _ _ hk]; first | exact hkp | grind)) | (have hkp := Inv.wpc $h; clear $h; grind) | skip)
  case' lnd => (first | exact Inv.lnd $h | (intro k; have hkp := Inv.lnd $h k; clear $h; by_cases hk : k = $i; (rw [hk] at hkp ⊢; first | (simp [upd_same, OPc.w, OPc.holds, WPc.holds, WPc.inList, WPc.dec] ; done) | grind | (simp [upd_same, OPc.w, OPc.holds, WPc.holds, WPc.inList, WPc.dec] at hkp ⊢; grind) | (simp_all [upd_same, OPc.w, OPc.holds, WPc.holds, WPc.inList, WPc.dec]; done)); (simp only [upd_other _ _ hk]; first | exact hkp | grind)) | (have hkp := Inv.lnd $h; clear $h; grind) | skip)
  case' lpc => (first | exact Inv.lpc $h | (intro k; have hkp := Inv.lpc $h k; clear $h; by_cases hk : k = $i; (rw [hk] at hkp ⊢; first | (simp [upd_same, OPc.w, OPc.holds, WPc.holds, WPc.inList, WPc.dec] ; done) | grind | (simp [upd_same, OPc.w, OPc.holds, WPc.holds, WPc.inList, WPc.dec] at hkp ⊢; grind) | (simp_all [upd_same, OPc.w, OPc.holds, WPc.holds, WPc.inList, WPc.dec]; done)); (simp only [upd_other _ _ hk]; first | exact hkp | grind)) | (have hkp := Inv.lpc $h; clear $h; grind) | skip)
  case' ldj => (first | exact Inv.ldj $h | (intro k; have hkp := Inv.ldj $h k; clear $h; by_cases hk : k = $i; (rw [hk] at hkp ⊢; first | (simp [upd_same, OPc.w, OPc.holds, WPc.holds, WPc.inList, WPc.dec] ; done) | grind | (simp [upd_same, OPc.w, OPc.holds, WPc.holds, WPc.inList, WPc.dec] at hkp ⊢; grind) | (simp_all [upd_same, OPc.w, OPc.holds, WPc.holds, WPc.inList, WPc.dec]; done)); (simp only [upd_other _ _ hk]; first | exact hkp | grind)) | (have hkp := Inv.ldj $h; clear $h; grind) | skip)
  case' cov => (first | exact Inv.cov $h | (intro k; have hkp := Inv.cov $h k; clear $h; by_cases hk : k = $i; (rw [hk] at hkp ⊢; first | (simp [upd_same, OPc.w, OPc.holds, WPc.holds, WPc.inList, WPc.dec] ; done) | grind | (simp [upd_same, OPc.w, OPc.holds, WPc.holds, WPc.inList, WPc.dec] at hkp ⊢; grind) | (simp_all [upd_same, OPc.w, OPc.holds, WPc.holds, WPc.inList, WPc.dec]; done)); (simp only [upd_other _ _ hk]; first | exact hkp | grind)) | (have hkp := Inv.cov $h; clear $h; grind) | skip)
  case' lop => (first | exact Inv.lop $h | (intro k; have hkp := Inv.lop $h k; clear $h; by_cases hk : k = $i; (rw [hk] at hkp ⊢; first | (simp [upd_same, OPc.w, OPc.holds, WPc.holds, WPc.inList, WPc.dec] ; done) | grind | (simp [upd_same, OPc.w, OPc.holds, WPc.holds, WPc.inList, WPc.dec] at hkp ⊢; grind) | (simp_all [upd_same, OPc.w, OPc.holds, WPc.holds, WPc.inList, WPc.dec]; done)); (simp only [upd_other _ _ hk]; first | exact hkp | grind)) | (have hkp := Inv.lop $h; clear $h; grind) | skip)
  case' ulf => (first | exact Inv.ulf $h | (intro k; have hkp := Inv.ulf $h k; clear $h; by_cases hk : k = $i; (rw [hk] at hkp ⊢; first | (simp [upd_same, OPc.w, OPc.holds, WPc.holds, WPc.inList, WPc.dec] ; done) | grind | (simp [upd_same, OPc.w, OPc.holds, WPc.holds, WPc.inList, WPc.dec] at hkp ⊢; grind) | (simp_all [upd_same, OPc.w, OPc.holds, WPc.holds, WPc.inList, WPc.dec]; done)); (simp only [upd_other _ _ hk]; first | exact hkp | grind)) | (have hkp := Inv.ulf $h; clear $h; grind) | skip)
  case' ulq => (first | exact Inv.ulq $h | (intro k; have hkp := Inv.ulq $h k; clear $h; by_cases hk : k = $i; (rw [hk] at hkp ⊢; first | (simp [upd_same, OPc.w, OPc.holds, WPc.holds, WPc.inList, WPc.dec] ; done) | grind | (simp [upd_same, OPc.w, OPc.holds, WPc.holds, WPc.inList, WPc.dec] at hkp ⊢; grind) | (simp_all [upd_same, OPc.w, OPc.holds, WPc.holds, WPc.inList, WPc.dec]; done)); (simp only [upd_other _ _ hk]; first | exact hkp | grind)) | (have hkp := Inv.ulq $h; clear $h; grind) | skip)
  case' st => (first | exact Inv.st $h | (intro k; have hkp := Inv.st $h k; clear $h; by_cases hk : k = $i; (rw [hk] at hkp ⊢; first | (simp [upd_same, OPc.w, OPc.holds, WPc.holds, WPc.inList, WPc.dec] ; done) | grind | (simp [upd_same, OPc.w, OPc.holds, WPc.holds, WPc.inList, WPc.dec] at hkp ⊢; grind) | (simp_all [upd_same, OPc.w, OPc.holds, WPc.holds, WPc.inList, WPc.dec]; done)); (simp only [upd_other _ _ hk]; first | exact hkp | grind)) | (have hkp := Inv.st $h; clear $h; grind) | skip)
  case' cl0 => (first | exact Inv.cl0 $h | (intro k; have hkp := Inv.cl0 $h k; clear $h; by_cases hk : k = $i; (rw [hk] at hkp ⊢; first | (simp [upd_same, OPc.w, OPc.holds, WPc.holds, WPc.inList, WPc.dec] ; done) | grind | (simp [upd_same, OPc.w, OPc.holds, WPc.holds, WPc.inList, WPc.dec] at hkp ⊢; grind) | (simp_all [upd_same, OPc.w, OPc.holds, WPc.holds, WPc.inList, WPc.dec]; done)); (simp only [upd_other _ _ hk]; first | exact hkp | grind)) | (have hkp := Inv.cl0 $h; clear $h; grind) | skip)
  case' clU => (first | exact Inv.clU $h | (intro k; have hkp := Inv.clU $h k; clear $h; by_cases hk : k = $i; (rw [hk] at hkp ⊢; first | (simp [upd_same, OPc.w, OPc.holds, WPc.holds, WPc.inList, WPc.dec] ; done) | grind | (simp [upd_same, OPc.w, OPc.holds, WPc.holds, WPc.inList, WPc.dec] at hkp ⊢; grind) | (simp_all [upd_same, OPc.w, OPc.holds, WPc.holds, WPc.inList, WPc.dec]; done)); (simp only [upd_other _ _ hk]; first | exact hkp | grind)) | (have hkp := Inv.clU $h; clear $h; grind) | skip)
  case' dst => (first | exact Inv.dst $h | (have hkp := Inv.dst $h; clear $h; grind) | skip)
  case' uaf => (first | exact Inv.uaf $h | (have hkp := Inv.uaf $h; clear $h; grind) | skip)
  case' asf => (first | exact Inv.asf $h | (have hkp := Inv.asf $h; clear $h; grind) | skip)
  case' bsub => (first | exact Inv.bsub $h | (intro k; have hkp := Inv.bsub $h k; clear $h; by_cases hk : k = $i; (rw [hk] at hkp ⊢; first | (simp [upd_same, OPc.w, OPc.holds, WPc.holds, WPc.inList, WPc.dec] ; done) | grind | (simp [upd_same, OPc.w, OPc.holds, WPc.holds, WPc.inList, WPc.dec] at hkp ⊢; grind) | (simp_all [upd_same, OPc.w, OPc.holds, WPc.holds, WPc.inList, WPc.dec]; done)); (simp only [upd_other _ _ hk]; first | exact hkp | grind)) | (have hkp := Inv.bsub $h; clear $h; grind) | skip)
  case' bef => (first | exact Inv.bef $h | (intro k; have hkp := Inv.bef $h k; clear $h; by_cases hk : k = $i; (rw [hk] at hkp ⊢; first | (simp [upd_same, OPc.w, OPc.holds, WPc.holds, WPc.inList, WPc.dec] ; done) | grind | (simp [upd_same, OPc.w, OPc.holds, WPc.holds, WPc.inList, WPc.dec] at hkp ⊢; grind) | (simp_all [upd_same, OPc.w, OPc.holds, WPc.holds, WPc.inList, WPc.dec]; done)); (simp only [upd_other _ _ hk]; first | exact hkp | grind)) | (have hkp := Inv.bef $h; clear $h; grind) | skip)
  ))

theorem inv_init : Inv init := by
  constructor <;> intros <;> simp_all [init, lsum] <;> grind

theorem sumO {s : St} (h : Inv s) {i : Nat} (hi : s.opc i ≠ .idle) (p : OPc) :
    lsum OPc.w (upd s.opc i p) s.ops + (s.opc i).w = lsum OPc.w s.opc s.ops + p.w :=
  lsum_upd_in OPc.w s.opc h.ond ((h.om i).2 hi)

theorem Inv.le {s : St} (h : Inv s) (i : Nat) : (s.opc i).w ≤ s.active := by
  by_cases hi : s.opc i = .idle
  · simp [hi, OPc.w]
  · have := le_lsum OPc.w s.opc ((h.om i).2 hi)
    have := h.act; omega

theorem Inv.le2 {s : St} (h : Inv s) {i j : Nat} (hij : i ≠ j) : (s.opc i).w + (s.opc j).w ≤ s.active := by
  have h1 := h.le i
  have h2 := h.le j
  by_cases hi : s.opc i = .idle
  · simp [hi, OPc.w]; exact h2
  · by_cases hj : s.opc j = .idle
    · simp [hj, OPc.w]; exact h1
    · have := add_le_lsum OPc.w s.opc ((h.om i).2 hi) ((h.om j).2 hj) hij
      have := h.act; omega

end Verif.AsyncScope
