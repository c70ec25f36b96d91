import Verif.WmMpsc.Base
/-!
# The intrusive MPSC queue under the C++ memory model — no access races (C96)
-/
namespace Verif.WmMpsc

open Verif.WM

theorem conf_lnk {b : Acc} {t x : Nat} (h : conf b ⟨t, .lnk x⟩ = true) : b.what = .put x ∨ b.what = .use x := by
  obtain ⟨w, b⟩ := b
  cases b <;> simp_all [conf, What.on]

theorem conf_put {b : Acc} {t x : Nat} (h : conf b ⟨t, .put x⟩ = true) : b.what.on x = true := by
  obtain ⟨w, b⟩ := b
  cases b <;> simp_all [conf, What.on]

theorem conf_use {b : Acc} {t x : Nat} (h : conf b ⟨t, .use x⟩ = true) : b.what.on x = true := by
  obtain ⟨w, b⟩ := b
  cases b <;> simp_all [conf, What.on]

theorem quiet_atom {s : St} {t : Nat} : s.m.racy conf t ⟨t, .atom⟩ = false := by
  rw [racy_false]; intro k b _ hc
  obtain ⟨w, b⟩ := b
  cases b <;> simp_all [conf, What.on]

theorem quiet_put {s : St} {n : Nat} (hK : K s) (hn : n ≠ 0) (hp : s.pc n = .idle) : s.m.racy conf n ⟨n, .put n⟩ = false := by
  rw [racy_false]; intro k b hk hc
  exact absurd hp (hK.putPc k b n hk (conf_put hc) hn)

theorem quiet_clr {s : St} {n : Nat} (hK : K s) (hp : s.pc n = .st) : s.m.racy conf n ⟨n, .lnk n⟩ = false := by
  rw [racy_false]; intro k b hk hc
  rcases conf_lnk hc with h | h
  · have := hK.own k b hk; rw [(hK.putW k b n hk h).1] at this; exact this
  · have := (hK.useI k b n hk h).2.1; rw [hp] at this; cases this

/-- The node of a message that has not been linked has not been used. -/
theorem not_used {s : St} {j : Nat} (hA : A s) (hK : K s) (h1 : j ≤ s.kh) (h2 : s.lkd j = false) {k : Nat} {b : Acc}
    (hk : s.m.logged k b) : b.what ≠ .use (s.seq j) := by
  intro hu
  obtain ⟨u1, u2, u3, u4⟩ := hK.useI k b _ hk hu
  rw [(hA.seqP j h1 u1).1] at u3
  rw [hA.passed j u3] at h2; cases h2

theorem quiet_lk {s : St} {n x : Nat} (hA : A s) (hK : K s) (hn : n ≠ 0) (hp : s.pc n = .lk x) : s.m.racy conf n ⟨n, .lnk x⟩ = false := by
  rw [racy_false]; intro k b hk hc
  obtain ⟨e1, e2⟩ := hA.lkI n x hp
  obtain ⟨i1, i2, i3⟩ := hA.idxP n hn (by rw [hp]; rfl)
  rcases conf_lnk hc with h | h
  · obtain ⟨w1, w2⟩ := hK.putW k b x hk h
    exact hK.lkK n x k b hp w2 hk (by rw [h]; simp [What.on]) (by rw [w1]; exact w2)
  · rw [e1] at h; exact absurd h (not_used hA hK (by omega) e2 hk)

theorem quiet_c6 {s : St} {x : Nat} (hA : A s) (hK : K s) (hp : s.c = .c6 x) : s.m.racy conf 0 ⟨0, .lnk x⟩ = false := by
  rw [racy_false]; intro k b hk hc
  obtain ⟨e1, e2, e3⟩ := hA.c6I x hp
  have e4 := hA.spP.1
  rcases conf_lnk hc with h | h
  · obtain ⟨w1, w2⟩ := hK.putW k b x hk h
    exact hK.c6K x k b hp w2 hk (by rw [h]; simp [What.on]) (by rw [w1]; exact w2)
  · rw [e1] at h; exact absurd h (not_used hA hK (by omega) e3 hk)

theorem quiet_tail {s : St} (hA : A s) (hK : K s) : s.m.racy conf 0 ⟨0, .lnk s.tail⟩ = false := by
  rw [racy_false]; intro k b hk hc
  obtain ⟨e1, e2⟩ := hA.pP
  rcases conf_lnk hc with h | h
  · exact hK.tailPut k b hk (by rw [h, e2])
  · obtain ⟨u1, u2, u3, u4⟩ := hK.useI k b _ hk h
    rw [e2] at u1 u3
    rw [(hA.seqP _ e1 u1).1] at u3
    omega

theorem quiet_stub {s : St} (hK : K s) : s.m.racy conf 0 ⟨0, .lnk 0⟩ = false := by
  rw [racy_false]; intro k b hk hc
  rcases conf_lnk hc with h | h
  · exact absurd rfl (hK.putW k b 0 hk h).2
  · exact absurd rfl (hK.useI k b 0 hk h).1

theorem quiet_use {s : St} {x : Nat} (hK : K s) (hc : s.c = .ret x) : s.m.racy conf 0 ⟨0, .use x⟩ = false := by
  rw [racy_false]; intro k b hk h
  exact hK.retK x k b hc hk (conf_use h)

end Verif.WmMpsc
