import Verif.NvMem.Model
/-!
# nvexec's memory resources — properties (C79)
-/
set_option maxHeartbeats 1000000
namespace Verif.NvMem

theorem Blk.Disj.symm {a b : Blk} (h : a.Disj b) : b.Disj a := Or.symm h

theorem lt_szOf {n : Nat} (h : n < 2 ^ 63) : n < szOf n := by
  unfold szOf bitWidth
  split
  · subst_vars; simp
  · rename_i hn
    have h1 : Nat.log2 n < 63 := (Nat.log2_lt hn).2 h
    rw [Nat.mod_eq_of_lt (by omega)]
    exact Nat.lt_log2_self

theorem szOf_pos (n : Nat) : 0 < szOf n := Nat.pow_pos (by decide)

theorem find_perm {p : Desc → Bool} : ∀ {l : List Desc} {d : Desc}, l.find? p = some d →
    l.Perm (d :: l.eraseP p)
  | [], _, h => by simp at h
  | x :: xs, d, h => by
    simp only [List.find?_cons] at h
    split at h
    · rename_i hx; cases h; simp [hx]
    · rename_i hx
      have := find_perm h
      simp only [List.eraseP_cons, hx, cond_false]
      exact (List.Perm.cons x this).trans (List.Perm.swap ..)

theorem insertSorted_perm (d : Desc) : ∀ l, (insertSorted d l).Perm (d :: l)
  | [] => .refl _
  | x :: xs => by
    unfold insertSorted
    split
    · exact .refl _
    · exact (List.Perm.cons x (insertSorted_perm d xs)).trans (List.Perm.swap ..)

/-- All memory that is in the pool's hands or the users'. -/
def St.regs (s : St) : List Blk := (s.live ++ s.cached).map Desc.blk

structure Inv (s : St) : Prop where
  up : s.up.Pairwise Blk.Disj
  disj : s.regs.Pairwise Blk.Disj
  pos : ∀ d ∈ s.regs, 0 < d.size ∧ d.ptr % 256 = 0
  inn : s.dead = false → ∀ d ∈ s.regs, ∃ b ∈ s.up, d.In b
  cur : s.dead = false → ∃ b ∈ s.up, Blk.In ⟨s.cur, s.space⟩ b
  free : ∀ d ∈ s.regs, d.Disj ⟨s.cur, s.space⟩
  req : ∀ d ∈ s.live, d.req < 2 ^ 63 → d.req ≤ d.bytes

theorem Inv.perm {s s' : St} (h : Inv s) (hu : s'.up = s.up) (hd : s'.dead = s.dead) (hc : s'.cur = s.cur)
    (hs : s'.space = s.space) (hp : ∃ l, s.regs.Perm (l ++ s'.regs))
    (hr : ∀ d ∈ s'.live, d.req < 2 ^ 63 → d.req ≤ d.bytes) : Inv s' := by
  obtain ⟨l, hp⟩ := hp
  have hm : ∀ d ∈ s'.regs, d ∈ s.regs := fun d hd => hp.mem_iff.2 (List.mem_append_right _ hd)
  refine ⟨hu ▸ h.up, ?_, fun d x => h.pos d (hm d x), ?_, ?_, ?_, hr⟩
  · have := (hp.pairwise_iff (fun {a b} => Blk.Disj.symm)).1 h.disj
    exact (List.pairwise_append.1 this).2.1
  · rw [hd, hu]; exact fun x d y => h.inn x d (hm d y)
  · rw [hd, hu, hc, hs]; exact h.cur
  · rw [hc, hs]; exact fun d y => h.free d (hm d y)

theorem align256_spec {bytes ptr space p sp : Nat} (h : align256 bytes ptr space = some (p, sp)) :
    p % 256 = 0 ∧ ptr ≤ p ∧ p + bytes ≤ ptr + space ∧ p + sp = ptr + space ∧ bytes ≤ sp := by
  simp only [align256] at h
  split at h
  · simp only [Option.some.injEq, Prod.mk.injEq] at h
    obtain ⟨rfl, rfl⟩ := h
    omega
  · cases h

/-- What `monotonic_buffer_resource` hands out is aligned, inside a block and not in use. -/
theorem mono_spec {s s' : St} {n : Nat} {r : Option Nat} {push : Bool} {o : Option Nat}
    (h : Inv s) (hn : 0 < n) (hd : s.dead = false) (he : monoAlloc s n r push = some (s', o))
    (hb : s'.badAlloc = false) :
    Inv s' ∧ s'.live = s.live ∧ s'.cached = s.cached ∧ s'.dead = false ∧
    ∀ p, o = some p → p % 256 = 0 ∧ (∃ b ∈ s'.up, Blk.In ⟨p, n⟩ b) ∧ Blk.Disj ⟨p, n⟩ ⟨s'.cur, s'.space⟩ ∧
      ∀ d ∈ s'.regs, d.Disj ⟨p, n⟩ := by
  simp only [monoAlloc] at he
  split at he
  · rename_i p sp ha
    obtain ⟨a1, a2, a3, a4, a5⟩ := align256_spec ha
    split at he
    · cases he
      refine ⟨⟨h.up, h.disj, h.pos, h.inn, ?_, ?_, h.req⟩, rfl, rfl, hd, ?_⟩
      · intro _
        obtain ⟨b, hb1, hb2⟩ := h.cur hd
        refine ⟨b, hb1, ?_⟩
        simp only [Blk.In] at hb2 ⊢
        omega
      · intro d hx
        have := h.free d hx
        simp only [Blk.Disj] at this ⊢
        omega
      · intro q hq
        cases hq
        refine ⟨a1, ?_, ?_, ?_⟩
        · obtain ⟨b, hb1, hb2⟩ := h.cur hd
          refine ⟨b, hb1, ?_⟩
          simp only [Blk.In] at hb2 ⊢
          omega
        · simp only [Blk.Disj]; omega
        · intro d hx
          have h1 := h.free d hx
          simp only [Blk.Disj] at h1 ⊢
          omega
    · cases he
  · split at he
    · cases he; cases hb
    · rename_i a
      generalize hsp : max n (nextSpace s.blocks) = sp at he
      have hle : n ≤ sp := hsp ▸ Nat.le_max_left ..
      split at he
      · rename_i hf
        simp only [fresh, Bool.and_eq_true, decide_eq_true_eq, List.all_eq_true] at hf
        obtain ⟨⟨f0, f1⟩, f2⟩ := hf
        have fr : ∀ d ∈ s.regs, d.Disj ⟨a, sp⟩ := by
          intro d hx
          obtain ⟨b, hb1, hb2⟩ := h.inn hd d hx
          have := f2 b hb1
          simp only [Blk.In, Blk.Disj] at hb2 this ⊢
          omega
        split at he
        · cases he
          refine ⟨⟨?_, h.disj, h.pos, ?_, ?_, ?_, h.req⟩, rfl, rfl, hd, ?_⟩
          · exact List.pairwise_cons.2 ⟨f2, h.up⟩
          · intro _ d hx
            obtain ⟨b, hb1, hb2⟩ := h.inn hd d hx
            exact ⟨b, List.mem_cons_of_mem _ hb1, hb2⟩
          · intro _
            refine ⟨_, List.mem_cons_self, ?_⟩
            simp only [Blk.In]; omega
          · intro d hx
            have := fr d hx
            simp only [Blk.Disj] at this ⊢
            omega
          · intro q hq
            cases hq
            refine ⟨f1, ⟨_, List.mem_cons_self, ?_⟩, ?_, ?_⟩
            · simp only [Blk.In]; omega
            · simp only [Blk.Disj]; omega
            · intro d hx
              have h1 := fr d hx
              simp only [Blk.Disj] at h1 ⊢
              omega
        · cases he
          refine ⟨⟨?_, h.disj, h.pos, ?_, ?_, ?_, h.req⟩, rfl, rfl, hd, ?_⟩
          · exact List.pairwise_cons.2 ⟨f2, h.up⟩
          · intro _ d hx
            obtain ⟨b, hb1, hb2⟩ := h.inn hd d hx
            exact ⟨b, List.mem_cons_of_mem _ hb1, hb2⟩
          · intro _
            exact ⟨_, List.mem_cons_self, by simp only [Blk.In]; omega⟩
          · exact fr
          · intro q hq; cases hq
      · cases he

theorem mono_bad {s s' : St} {n : Nat} {r : Option Nat} {push : Bool} {o : Option Nat}
    (he : monoAlloc s n r push = some (s', o)) (hb : s'.badAlloc = false) : s.badAlloc = false := by
  simp only [monoAlloc] at he
  split at he
  · split at he <;> cases he; exact hb
  · split at he
    · cases he; cases hb
    · split at he
      · split at he <;> cases he <;> exact hb
      · cases he

/-- A freshly allocated block joins the live ones. -/
theorem Inv.add {s : St} (h : Inv s) {d : Desc} (hb : d.bytes = szOf d.req) (h1 : d.ptr % 256 = 0)
    (h2 : ∃ b ∈ s.up, d.blk.In b) (h3 : d.blk.Disj ⟨s.cur, s.space⟩) (h4 : ∀ x ∈ s.regs, x.Disj d.blk) :
    Inv { s with live := d :: s.live } := by
  have hr : St.regs { s with live := d :: s.live } = d.blk :: s.regs := by simp [St.regs]
  refine ⟨h.up, ?_, ?_, ?_, h.cur, ?_, ?_⟩
  · rw [hr]; exact List.pairwise_cons.2 ⟨fun x hx => (h4 x hx).symm, h.disj⟩
  · rw [hr]
    intro x hx
    rcases List.mem_cons.1 hx with rfl | hx
    · exact ⟨by simp only [Desc.blk, hb]; exact szOf_pos _, h1⟩
    · exact h.pos x hx
  · rw [hr]
    intro hd x hx
    rcases List.mem_cons.1 hx with rfl | hx
    · exact h2
    · exact h.inn hd x hx
  · rw [hr]
    intro x hx
    rcases List.mem_cons.1 hx with rfl | hx
    · exact h3
    · exact h.free x hx
  · intro x hx hq
    rcases List.mem_cons.1 hx with rfl | hx
    · rw [hb]; exact Nat.le_of_lt (lt_szOf hq)
    · exact h.req x hx hq

theorem alloc_new {s s' s'' : St} {n : Nat} {r : Option Nat} {push ins : Bool} {o : Option Nat} (h : Inv s)
    (hd : s.dead = false) (he : monoAlloc s (szOf n) r push = some (s', o))
    (h2 : s'' = s' ∨ ∃ p, o = some p ∧ s'' = { s' with live := ⟨p, binOf n, szOf n, n⟩ :: s'.live })
    (hb : s''.badAlloc = false) : Inv s'' := by
  have hb' : s'.badAlloc = false := by
    rcases h2 with rfl | ⟨p, _, rfl⟩ <;> exact hb
  obtain ⟨a1, a2, a3, a4, a5⟩ := mono_spec h (szOf_pos n) hd he hb'
  rcases h2 with rfl | ⟨p, hp, rfl⟩
  · exact a1
  · obtain ⟨b1, b2, b3, b4⟩ := a5 p hp
    exact a1.add (d := ⟨p, binOf n, szOf n, n⟩) rfl b1 b2 b3 b4

theorem alloc_cases {s s' : St} {n : Nat} {r : Option Nat} {push ins : Bool}
    (he : step s (.alloc n r push ins) = some s') : (s.dead = false ∧ n < W) ∧
    ((∃ d, s.cached.find? (fun d => decide (szOf n ≤ d.bytes)) = some d ∧ d.bin = binOf n ∧ r = none ∧
        ((ins = true ∧ s' = { s with live := { d with req := n } :: s.live
                                     cached := s.cached.eraseP (fun d => decide (szOf n ≤ d.bytes)) }) ∨
         (ins = false ∧ s' = s))) ∨
     ((∀ d, s.cached.find? (fun d => decide (szOf n ≤ d.bytes)) = some d → d.bin ≠ binOf n) ∧
      ∃ s1 o, monoAlloc s (szOf n) r push = some (s1, o) ∧
        ((s' = s1 ∧ (o = none ∨ ins = false)) ∨
         ∃ p, o = some p ∧ ins = true ∧ s' = { s1 with live := ⟨p, binOf n, szOf n, n⟩ :: s1.live }))) := by
  simp only [step] at he
  split at he
  · cases he
  · rename_i hd
    refine ⟨by simpa using hd, ?_⟩
    have key : ∀ x, (match monoAlloc s (szOf n) r push with
        | none => none
        | some (s', none) => some s'
        | some (s', some p) =>
          if ins then some { s' with live := ⟨p, binOf n, szOf n, n⟩ :: s'.live } else some s') = some x →
        ∃ s1 o, monoAlloc s (szOf n) r push = some (s1, o) ∧
        ((x = s1 ∧ (o = none ∨ ins = false)) ∨
         ∃ p, o = some p ∧ ins = true ∧ x = { s1 with live := ⟨p, binOf n, szOf n, n⟩ :: s1.live }) := by
      intro x hx
      split at hx
      · cases hx
      · cases hx; exact ⟨_, _, ‹_›, .inl ⟨rfl, .inl rfl⟩⟩
      · split at hx
        · cases hx; exact ⟨_, _, ‹_›, .inr ⟨_, rfl, ‹_›, rfl⟩⟩
        · cases hx; refine ⟨_, _, ‹_›, .inl ⟨rfl, .inr ?_⟩⟩; simp_all
    split at he
    · rename_i d hf
      split at he
      · rename_i hbin
        split at he
        · rename_i hr
          refine .inl ⟨d, hf, hbin, hr, ?_⟩
          split at he
          · cases he; exact .inl ⟨‹_›, rfl⟩
          · cases he; refine .inr ⟨?_, rfl⟩; simp_all
        · cases he
      · rename_i hbin
        refine .inr ⟨?_, key _ he⟩
        intro d' hd'; rw [hf] at hd'; cases hd'; exact hbin
    · rename_i hf
      refine .inr ⟨?_, key _ he⟩
      intro d' hd'; rw [hf] at hd'; cases hd'

theorem find_sz {l : List Desc} {n : Nat} {d : Desc}
    (h : l.find? (fun d => decide (szOf n ≤ d.bytes)) = some d) : szOf n ≤ d.bytes := by
  have := List.find?_some h
  simpa using this

theorem bad_mono {s s' : St} {a : Act} (he : step s a = some s') (hb : s'.badAlloc = false) :
    s.badAlloc = false := by
  cases a with
  | alloc n r push ins =>
    obtain ⟨_, ⟨d, _, _, _, ⟨_, rfl⟩ | ⟨_, rfl⟩⟩ | ⟨_, s1, o, h1, ⟨rfl, _⟩ | ⟨p, _, _, rfl⟩⟩⟩ := alloc_cases he
    · exact hb
    · exact hb
    · exact mono_bad h1 hb
    · exact mono_bad h1 hb
  | dealloc p ins =>
    simp only [step] at he
    split at he
    · cases he
    · split at he <;> cases he <;> exact hb
  | destroy =>
    simp only [step] at he
    split at he <;> cases he; exact hb

theorem inv_step {s s' : St} {a : Act} (hi : s.badAlloc = false → Inv s) (he : step s a = some s') :
    s'.badAlloc = false → Inv s' := by
  intro hb
  have h := hi (bad_mono he hb)
  cases a with
  | alloc n r push ins =>
    obtain ⟨⟨hd, hW⟩, ⟨d, hf, _, _, ⟨_, rfl⟩ | ⟨_, rfl⟩⟩ | ⟨_, s1, o, h1, ⟨rfl, _⟩ | ⟨p, hp, _, rfl⟩⟩⟩ :=
      alloc_cases he
    · refine h.perm rfl rfl rfl rfl ⟨[], ?_⟩ ?_
      · simp only [St.regs, List.map_append, List.map_cons, List.nil_append, List.cons_append]
        have := (find_perm hf).map Desc.blk
        refine (List.Perm.append_left _ this).trans ?_
        simp only [List.map_cons]
        exact List.perm_middle
      · intro x hx hq
        rcases List.mem_cons.1 hx with rfl | hx
        · have h9 := find_sz hf
          exact Nat.le_trans (Nat.le_of_lt (lt_szOf (n := n) hq)) h9
        · exact h.req x hx hq
    · exact h
    · exact alloc_new (ins := ins) h hd h1 (.inl rfl) hb
    · exact alloc_new (ins := ins) h hd h1 (.inr ⟨p, hp, rfl⟩) hb
  | dealloc p ins =>
    simp only [step] at he
    split at he
    · cases he
    · split at he
      · cases he; exact h
      · rename_i d hf
        cases he
        have hperm := (find_perm hf).map Desc.blk
        refine h.perm rfl rfl rfl rfl ?_ ?_
        · cases ins with
          | true =>
            refine ⟨[], ?_⟩
            simp only [St.regs, List.map_append, List.nil_append, if_true]
            refine (List.Perm.append_right _ hperm).trans ?_
            refine List.Perm.trans ?_
              (List.Perm.append_left _ ((insertSorted_perm d s.cached).map Desc.blk).symm)
            simp only [List.map_cons, List.cons_append]
            exact List.perm_middle.symm
          | false =>
            refine ⟨[d.blk], ?_⟩
            simp only [St.regs, List.map_append, if_false, Bool.false_eq_true]
            exact List.Perm.append_right _ hperm
        · intro x hx hq
          exact h.req x (List.mem_of_mem_eraseP hx) hq
  | destroy =>
    simp only [step] at he
    split at he
    · rename_i hd
      cases he
      refine ⟨h.up.filter _, ?_, ?_, ?_, ?_, ?_, ?_⟩ <;> simp [St.regs, hd.2]
    · cases he

theorem inv_init {n0 a : Nat} : Inv (init n0 a) := by
  refine ⟨?_, ?_, ?_, ?_, ?_, ?_, ?_⟩ <;> simp [init, St.regs, Blk.In]

theorem reach_inv {n0 a : Nat} {s : St} (h : Reach (init n0 a) step s) : s.badAlloc = false → Inv s :=
  Reach.inv (fun s => s.badAlloc = false → Inv s) (fun _ => inv_init) (fun _ _ _ hi he => inv_step hi he) s h

/-! ## The properties -/

/-- **C79** (partial: as long as CUDA's allocation function has not failed; see `C79_violation`). Whatever
pointer is handed out is aligned to 256 bytes, hence to every alignment the resource accepts. -/
theorem C79_aligned_partial {n0 a : Nat} {s : St} (h : Reach (init n0 a) step s) (hb : s.badAlloc = false)
    (d : Desc) (hd : d ∈ s.live) (al : Nat) (hal : al ∣ 256) : al ∣ d.ptr := by
  have := ((reach_inv h hb).pos d.blk (by simp only [St.regs]; exact List.mem_map_of_mem (List.mem_append_left _ hd))).2
  exact Nat.dvd_trans hal (Nat.dvd_of_mod_eq_zero this)

/-- **C79**. Blocks of any requested sizes below 2^63 that users hold at the same time do not overlap. -/
theorem C79_disjoint_partial {n0 a : Nat} {s : St} (h : Reach (init n0 a) step s) (hb : s.badAlloc = false) :
    (s.live.map Desc.user).Pairwise (fun x y => x.size < 2 ^ 63 → y.size < 2 ^ 63 → x.ptr ≠ y.ptr ∧ x.Disj y) := by
  have hi := reach_inv h hb
  have h1 : (s.live.map Desc.blk).Pairwise Blk.Disj := by
    have := hi.disj
    simp only [St.regs, List.map_append] at this
    exact (List.pairwise_append.1 this).1
  rw [List.pairwise_map] at h1 ⊢
  refine List.Pairwise.imp_of_mem ?_ h1
  intro x y hx hy hxy qx qy
  have a1 := hi.req x hx qx
  have a2 := hi.req y hy qy
  have b1 := (hi.pos x.blk (by simp only [St.regs]; exact List.mem_map_of_mem (List.mem_append_left _ hx))).1
  have b2 := (hi.pos y.blk (by simp only [St.regs]; exact List.mem_map_of_mem (List.mem_append_left _ hy))).1
  simp only [Blk.Disj, Desc.blk, Desc.user] at hxy b1 b2 ⊢
  omega

/-- **C79**. Every block that users hold lies inside memory obtained from CUDA and not given back. -/
theorem C79_inside_partial {n0 a : Nat} {s : St} (h : Reach (init n0 a) step s) (hb : s.badAlloc = false)
    (d : Desc) (hd : d ∈ s.live) (hq : d.req < 2 ^ 63) (hdead : s.dead = false) : ∃ b ∈ s.up, d.user.In b := by
  have hi := reach_inv h hb
  obtain ⟨b, hb1, hb2⟩ := hi.inn hdead d.blk
    (by simp only [St.regs]; exact List.mem_map_of_mem (List.mem_append_left _ hd))
  have := hi.req d hd hq
  refine ⟨b, hb1, ?_⟩
  simp only [Blk.In, Desc.blk, Desc.user] at hb2 ⊢
  omega

/-! ### Everything is given back -/

structure BInv (s : St) : Prop where
  up : s.dead = false → s.returned = [] ∧ (s.badPush = false → s.blocks = s.up ∧ s.got = s.up) ∧
    s.blocks.Sublist s.got
  dn : s.dead = true → s.returned.Sublist s.got ∧ (s.badPush = false → s.returned = s.got ∧ s.up = [])

theorem mono_binv {s s' : St} {n : Nat} {r : Option Nat} {push : Bool} {o : Option Nat} (h : BInv s)
    (hd : s.dead = false) (he : monoAlloc s n r push = some (s', o)) : BInv s' ∧ s'.dead = false := by
  obtain ⟨h1, h2, h3⟩ := h.up hd
  simp only [monoAlloc] at he
  split at he
  · split at he <;> cases he; exact ⟨⟨fun _ => ⟨h1, h2, h3⟩, fun h => by simp [hd] at h⟩, hd⟩
  · split at he
    · cases he; exact ⟨⟨fun _ => ⟨h1, h2, h3⟩, fun h => by simp [hd] at h⟩, hd⟩
    · split at he
      · split at he <;> cases he
        · refine ⟨⟨fun _ => ⟨h1, fun hb => ?_, h3.cons_cons _⟩, fun h => by simp [hd] at h⟩, hd⟩
          obtain ⟨a1, a2⟩ := h2 hb
          simp only [a1, a2, and_self]
        · exact ⟨⟨fun _ => ⟨h1, fun hb => absurd hb (by simp), h3.cons _⟩, fun h => by simp [hd] at h⟩, hd⟩
      · cases he

theorem BInv.congr {s s' : St} (h : BInv s) (h1 : s'.dead = s.dead) (h2 : s'.returned = s.returned)
    (h3 : s'.blocks = s.blocks) (h4 : s'.up = s.up) (h5 : s'.got = s.got) (h6 : s'.badPush = s.badPush) :
    BInv s' := by
  constructor <;> rw [h1, h2, h4, h5, h6]
  · rw [h3]; exact h.up
  · exact h.dn

theorem binv_step {s s' : St} {a : Act} (h : BInv s) (he : step s a = some s') : BInv s' := by
  cases a with
  | alloc n r push ins =>
    obtain ⟨⟨hd, hW⟩, ⟨d, hf, _, _, ⟨_, rfl⟩ | ⟨_, rfl⟩⟩ | ⟨_, s1, o, h1, ⟨rfl, _⟩ | ⟨p, hp, _, rfl⟩⟩⟩ :=
      alloc_cases he
    · exact h.congr rfl rfl rfl rfl rfl rfl
    · exact h
    · exact (mono_binv h hd h1).1
    · exact (mono_binv h hd h1).1.congr rfl rfl rfl rfl rfl rfl
  | dealloc p ins =>
    simp only [step] at he
    split at he
    · cases he
    · split at he <;> cases he
      · exact h
      · exact h.congr rfl rfl rfl rfl rfl rfl
  | destroy =>
    simp only [step] at he
    split at he
    · rename_i hd
      cases he
      obtain ⟨h1, h2, h3⟩ := h.up hd.1
      refine ⟨fun h => (by cases h), fun _ => ?_⟩
      simp only [h1, List.append_nil]
      refine ⟨h3, fun hb => ?_⟩
      obtain ⟨a1, a2⟩ := h2 hb
      refine ⟨by rw [a1, a2], ?_⟩
      simp [a1]
    · cases he

theorem reach_binv {n0 a : Nat} {s : St} (h : Reach (init n0 a) step s) : BInv s :=
  Reach.inv BInv ⟨fun _ => by simp [init], fun h => by cases h⟩ (fun _ _ _ hi he => binv_step hi he) s h

/-- **C79** (partial: no exception while recording a block). When the resources are destroyed, all memory
ever obtained from CUDA is given back, each block exactly once and with its size; nothing is given back
before. -/
theorem C79_returned_partial {n0 a : Nat} {s : St} (h : Reach (init n0 a) step s) :
    (s.dead = false → s.returned = []) ∧
    (s.dead = true → s.badPush = false → s.returned = s.got ∧ s.up = []) ∧
    s.returned.Sublist s.got := by
  have hi := reach_binv h
  refine ⟨fun hd => (hi.up hd).1, fun hd => (hi.dn hd).2, ?_⟩
  cases hd : s.dead with
  | false => rw [(hi.up hd).1]; exact List.nil_sublist _
  | true => exact (hi.dn hd).1

/-! ### Success and reuse -/

/-- **C79**. `allocate` fails only if CUDA's allocation function or a container fails: if neither does,
the user holds a block of the requested size afterwards, and all earlier ones. -/
theorem C79_succeeds {n : Nat} {r : Option Nat} {push ins : Bool} {s s' : St}
    (he : step s (.alloc n r push ins) = some s') (hins : ins = true) (hb : s'.badAlloc = false)
    (hp : s'.badPush = false) :
    ∃ d, d.req = n ∧ s'.live = d :: s.live := by
  subst hins
  obtain ⟨⟨hd, hW⟩, ⟨d, hf, _, _, ⟨_, rfl⟩ | ⟨h, _⟩⟩ | ⟨_, s1, o, h1, ⟨rfl, h⟩ | ⟨p, hp, _, rfl⟩⟩⟩ := alloc_cases he
  · exact ⟨_, rfl, rfl⟩
  · cases h
  · rcases h with rfl | h
    · exfalso
      simp only [monoAlloc] at h1
      split at h1
      · split at h1 <;> cases h1
      · split at h1
        · cases h1; cases hb
        · split at h1
          · split at h1 <;> cases h1; cases hp
          · cases h1
    · cases h
  · refine ⟨⟨p, binOf n, szOf n, n⟩, rfl, ?_⟩
    simp only [monoAlloc] at h1
    split at h1
    · split at h1 <;> cases h1; rfl
    · split at h1
      · cases h1; cases hp
      · split at h1
        · split at h1 <;> cases h1 <;> first | rfl | cases hp
        · cases h1

theorem bitWidth_mono {a b : Nat} (h : a ≤ b) : bitWidth a ≤ bitWidth b := by
  unfold bitWidth
  split
  · omega
  · rename_i ha
    rw [if_neg (by omega)]
    have := (Nat.le_log2 (by omega : b ≠ 0)).2 (Nat.le_trans (Nat.log2_self_le ha) h)
    omega

theorem bitWidth_lt {n : Nat} (h : n < 2 ^ 63) : bitWidth n < 64 := by
  unfold bitWidth
  split
  · omega
  · rename_i hn
    have := (Nat.log2_lt hn).2 h
    omega

theorem bitWidth_le {n : Nat} (h : n < W) : bitWidth n ≤ 64 := by
  unfold bitWidth
  split
  · omega
  · rename_i hn
    have := (Nat.log2_lt (k := 64) hn).2 (by simpa [W] using h)
    omega

structure CInv (s : St) : Prop where
  sz : ∀ d ∈ s.live ++ s.cached, ∃ n < W, d.bin = binOf n ∧ d.bytes = szOf n
  sorted : s.cached.Pairwise (fun x y => x.bytes ≤ y.bytes)

theorem mem_insertSorted {d x : Desc} {l : List Desc} (h : x ∈ insertSorted d l) : x = d ∨ x ∈ l := by
  have := (insertSorted_perm d l).mem_iff.1 h
  simpa using this

theorem insertSorted_sorted (d : Desc) : ∀ {l : List Desc}, l.Pairwise (fun x y => x.bytes ≤ y.bytes) →
    (insertSorted d l).Pairwise (fun x y => x.bytes ≤ y.bytes)
  | [], _ => by simp [insertSorted]
  | x :: xs, h => by
    have h1 := List.pairwise_cons.1 h
    unfold insertSorted
    split
    · rename_i hlt
      refine List.pairwise_cons.2 ⟨?_, h⟩
      intro y hy
      rcases List.mem_cons.1 hy with rfl | hy
      · omega
      · have := h1.1 y hy; omega
    · rename_i hlt
      refine List.pairwise_cons.2 ⟨?_, insertSorted_sorted d h1.2⟩
      intro y hy
      rcases mem_insertSorted hy with rfl | hy
      · omega
      · exact h1.1 y hy

theorem mono_lists {s s' : St} {n : Nat} {r : Option Nat} {push : Bool} {o : Option Nat}
    (he : monoAlloc s n r push = some (s', o)) : s'.live = s.live ∧ s'.cached = s.cached := by
  simp only [monoAlloc] at he
  split at he
  · split at he <;> cases he; exact ⟨rfl, rfl⟩
  · split at he
    · cases he; exact ⟨rfl, rfl⟩
    · split at he
      · split at he <;> cases he <;> exact ⟨rfl, rfl⟩
      · cases he

theorem cinv_step {s s' : St} {a : Act} (h : CInv s) (he : step s a = some s') : CInv s' := by
  cases a with
  | alloc n r push ins =>
    obtain ⟨⟨hd, hW⟩, ⟨d, hf, _, _, ⟨_, rfl⟩ | ⟨_, rfl⟩⟩ | ⟨_, s1, o, h1, ⟨rfl, _⟩ | ⟨p, hp, _, rfl⟩⟩⟩ :=
      alloc_cases he
    · refine ⟨?_, h.sorted.sublist List.eraseP_sublist⟩
      intro x hx
      simp only [List.cons_append, List.mem_cons, List.mem_append] at hx
      rcases hx with rfl | hx | hx
      · exact h.sz d (List.mem_append_right _ (List.mem_of_find?_eq_some hf))
      · exact h.sz x (List.mem_append_left _ hx)
      · exact h.sz x (List.mem_append_right _ (List.mem_of_mem_eraseP hx))
    · exact h
    · obtain ⟨a1, a2⟩ := mono_lists h1
      exact ⟨by rw [a1, a2]; exact h.sz, by rw [a2]; exact h.sorted⟩
    · obtain ⟨a1, a2⟩ := mono_lists h1
      refine ⟨?_, by simp only [a2]; exact h.sorted⟩
      intro x hx
      simp only [a1, a2, List.cons_append, List.mem_cons] at hx
      rcases hx with rfl | hx
      · exact ⟨n, hW, rfl, rfl⟩
      · exact h.sz x hx
  | dealloc p ins =>
    simp only [step] at he
    split at he
    · cases he
    · split at he
      · cases he; exact h
      · rename_i d hf
        cases he
        have hd := h.sz d (List.mem_append_left _ (List.mem_of_find?_eq_some hf))
        refine ⟨?_, ?_⟩
        · intro x hx
          simp only [List.mem_append] at hx
          rcases hx with hx | hx
          · exact h.sz x (List.mem_append_left _ (List.mem_of_mem_eraseP hx))
          · cases ins with
            | true =>
              rcases mem_insertSorted hx with rfl | hx
              · exact hd
              · exact h.sz x (List.mem_append_right _ hx)
            | false => exact h.sz x (List.mem_append_right _ hx)
        · cases ins with
          | true => exact insertSorted_sorted d h.sorted
          | false => exact h.sorted
  | destroy =>
    simp only [step] at he
    split at he
    · cases he
      refine ⟨?_, by simp⟩
      intro x hx
      simp only [List.append_nil] at hx
      exact h.sz x (List.mem_append_left _ hx)
    · cases he

theorem reach_cinv {n0 a : Nat} {s : St} (h : Reach (init n0 a) step s) : CInv s :=
  Reach.inv CInv ⟨by simp [init], by simp [init]⟩ (fun _ _ _ hi he => cinv_step hi he) s h

/-- The first block large enough is not larger than a given one. -/
theorem find_le {k : Nat} : ∀ {l : List Desc} {d x : Desc}, l.Pairwise (fun x y => x.bytes ≤ y.bytes) →
    d ∈ l → k ≤ d.bytes → l.find? (fun d => decide (k ≤ d.bytes)) = some x → x.bytes ≤ d.bytes
  | [], _, _, _, h, _, _ => by simp at h
  | y :: ys, d, x, hp, hd, hk, hf => by
    have hp' := List.pairwise_cons.1 hp
    simp only [List.find?_cons] at hf
    split at hf
    · cases hf
      rcases List.mem_cons.1 hd with rfl | hd
      · exact Nat.le_refl _
      · exact hp'.1 d hd
    · rename_i hn
      rcases List.mem_cons.1 hd with rfl | hd
      · simp at hn; omega
      · exact find_le hp'.2 hd hk hf

/-- **C79**. A request for `n` bytes is served from memory that was deallocated, without asking for more,
if there is a block that was last allocated (upstream) for a request of the same number of bits. -/
theorem C79_reuse {n0 a : Nat} {s s' : St} (h : Reach (init n0 a) step s) {n m : Nat} {r : Option Nat}
    {push ins : Bool} (hn : 0 < n) (hn2 : n < 2 ^ 63) (d : Desc) (hd : d ∈ s.cached) (hm : bitWidth m = bitWidth n)
    (hb : d.bytes = szOf m) (he : step s (.alloc n r push ins) = some s') :
    s'.up = s.up ∧ s'.cur = s.cur ∧ s'.space = s.space ∧ r = none := by
  have hc := reach_cinv h
  have hsz : szOf m = szOf n := by simp only [szOf, hm]
  obtain ⟨_, ⟨d', hf, _, hr, ⟨_, rfl⟩ | ⟨_, rfl⟩⟩ | ⟨hno, _⟩⟩ := alloc_cases he
  · exact ⟨rfl, rfl, rfl, hr⟩
  · exact ⟨rfl, rfl, rfl, hr⟩
  · exfalso
    have hs : (s.cached.find? (fun d => decide (szOf n ≤ d.bytes))).isSome = true := by
      rw [List.find?_isSome]
      exact ⟨d, hd, by simp [hb, hsz]⟩
    obtain ⟨x, hx⟩ := Option.isSome_iff_exists.1 hs
    have h1 := find_sz hx
    have h2 := find_le hc.sorted hd (by rw [hb, hsz]; exact Nat.le_refl _) hx
    obtain ⟨k, hk, hkb, hks⟩ := hc.sz x (List.mem_append_right _ (List.mem_of_find?_eq_some hx))
    have h3 : szOf k = szOf n := by omega
    have h4 : bitWidth n < 64 := bitWidth_lt hn2
    have h5 : bitWidth k ≤ 64 := bitWidth_le hk
    have h6 : 0 < bitWidth n := by unfold bitWidth; rw [if_neg (by omega)]; omega
    have h7 : bitWidth k = bitWidth n := by
      simp only [szOf] at h3
      have h8 := (Nat.pow_right_inj (Nat.le_refl 2)).1 h3
      simp only [Nat.mod_eq_of_lt h4] at h8
      rcases Nat.lt_or_ge (bitWidth k) 64 with h9 | h9
      · rw [Nat.mod_eq_of_lt h9] at h8; exact h8
      · have : bitWidth k = 64 := by omega
        rw [this] at h8; simp at h8; omega
    exact hno x hx (by rw [hkb]; simp only [binOf, h7])

/-! ## Executions -/

/-- Two blocks, one given back and taken again by a request of the same size class. -/
example : ∃ s, Reach (init 524288 4096) step s ∧ s.badAlloc = false ∧
    s.live.map Desc.user = [⟨4096, 300⟩, ⟨4608, 5⟩] ∧ s.cached = [] := by
  obtain ⟨s, h1, h2⟩ := Reach.witness (init := init 524288 4096) (step := step)
    [.alloc 400 none true true, .alloc 5 none true true, .dealloc 4096 true, .alloc 300 none true true]
    (fun x : St => decide (x.badAlloc = false ∧ x.live.map Desc.user = [⟨4096, 300⟩, ⟨4608, 5⟩] ∧ x.cached = []))
    (by rfl)
  simp only [decide_eq_true_eq] at h2
  exact ⟨s, h1, h2⟩

/-- More memory is obtained, and everything is given back at the end. -/
example : ∃ s, Reach (init 16 4096) step s ∧ s.badPush = false ∧ s.dead = true ∧
    s.returned = [⟨8192, 512⟩, ⟨4096, 16⟩] := by
  obtain ⟨s, h1, h2⟩ := Reach.witness (init := init 16 4096) (step := step)
    [.alloc 300 (some 8192) true true, .dealloc 8192 true, .destroy]
    (fun x : St => decide (x.badPush = false ∧ x.dead = true ∧ x.returned = [⟨8192, 512⟩, ⟨4096, 16⟩])) (by rfl)
  simp only [decide_eq_true_eq] at h2
  exact ⟨s, h1, h2⟩

/-! ## Violations -/

/-- After CUDA's allocation function has failed once, the resource believes that its old block is as large
as the one it did not get (line 288 comes before 289): the next request is served with memory that was
never obtained. Here 512 bytes starting where the only block (16 bytes) starts. -/
theorem C79_violation : ∃ s, Reach (init 16 4096) step s ∧ s.up = [⟨4096, 16⟩] ∧
    ∃ d ∈ s.live, d.user = ⟨4096, 300⟩ := by
  obtain ⟨s, h1, h2⟩ := Reach.witness (init := init 16 4096) (step := step)
    [.alloc 300 none true true, .alloc 300 none true true]
    (fun x : St => decide (x.up = [⟨4096, 16⟩] ∧ ∃ d ∈ x.live, d.user = ⟨4096, 300⟩)) (by rfl)
  simp only [decide_eq_true_eq] at h2
  exact ⟨s, h1, h2⟩

/-- A request for 2^63 bytes or more is answered with a block of one byte: `1ull << 64` (325). -/
theorem C79_huge_violation : ∃ s, Reach (init 524288 4096) step s ∧ s.badAlloc = false ∧
    ∃ d ∈ s.live, d.req = 2 ^ 63 ∧ d.bytes = 1 := by
  obtain ⟨s, h1, h2⟩ := Reach.witness (init := init 524288 4096) (step := step)
    [.alloc (2 ^ 63) none true true]
    (fun x : St => decide (x.badAlloc = false ∧ ∃ d ∈ x.live, d.req = 2 ^ 63 ∧ d.bytes = 1)) (by rfl)
  simp only [decide_eq_true_eq] at h2
  exact ⟨s, h1, h2⟩

/-- A block whose descriptor cannot be recorded is never given back. -/
theorem C79_leak_violation : ∃ s, Reach (init 16 4096) step s ∧ s.dead = true ∧ s.up = [⟨8192, 512⟩] := by
  obtain ⟨s, h1, h2⟩ := Reach.witness (init := init 16 4096) (step := step)
    [.alloc 300 (some 8192) false true, .destroy]
    (fun x : St => decide (x.dead = true ∧ x.up = [⟨8192, 512⟩])) (by rfl)
  simp only [decide_eq_true_eq] at h2
  exact ⟨s, h1, h2⟩

end Verif.NvMem
