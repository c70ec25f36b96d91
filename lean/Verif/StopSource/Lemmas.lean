import Verif.StopSource.Model
/-! # `inplace_stop_source` — inductive invariant -/
namespace Verif.StopSource

/-- Number of times callback `c`'s function has been entered. -/
def invs : List Event → Cb → Nat
  | [], _ => 0
  | .invoke _ c' :: l, c => (if c' = c then 1 else 0) + invs l c
  | .reqRet _ _ :: l, c => invs l c

/-- Number of `request_stop()` calls that have returned `true`. -/
def wins : List Event → Nat
  | [] => 0
  | .reqRet _ b :: l => (if b then 1 else 0) + wins l
  | .invoke _ _ :: l => wins l

attribute [grind =] invs wins

theorem invs_pos {l : List Event} {c : Cb} (h : invs l c ≠ 0) : ∃ t, Event.invoke t c ∈ l := by
  induction l with
  | nil => simp [invs] at h
  | cons e l ih => cases e <;> grind

/-- Frames of the `request_stop` call that set the stop bit. -/
def Frame.active : Frame → Bool
  | .reqWon | .reqLoop | .reqExec _ | .reqRunning _ | .reqAfter _ | .reqMark _ | .reqRelock => true
  | _ => false

/-- Frames that hold the spin lock. -/
def Frame.holds : Frame → Bool
  | .reqWon | .reqLoop | .addLocked _ | .rmLocked _ => true
  | _ => false

/-- The callback in the hands of `request_stop`. -/
def Frame.cur : Frame → Option Cb
  | .reqExec c | .reqRunning c | .reqAfter c | .reqMark c => some c
  | _ => none

inductive Key | try_ | req | add (c : Cb) | rm (c : Cb)
  deriving DecidableEq

def Frame.key : Frame → Key
  | .reqTry => .try_
  | .reqWon | .reqLoop | .reqExec _ | .reqRunning _ | .reqAfter _ | .reqMark _ | .reqRelock => .req
  | .addTry c | .addLocked c | .addInline c => .add c
  | .rmLock c | .rmLocked c | .rmElse c _ | .rmSelf c | .rmWait c => .rm c

@[simp, grind =] theorem active_reqTry  : (Frame.reqTry).active = false := rfl
@[simp, grind =] theorem holds_reqTry  : (Frame.reqTry).holds = false := rfl
@[simp, grind =] theorem running_reqTry  : (Frame.reqTry).isRunning = false := rfl
@[simp, grind =] theorem cur_reqTry  : (Frame.reqTry).cur = none := rfl
@[simp, grind =] theorem key_reqTry  : (Frame.reqTry).key = .try_ := rfl
@[simp, grind =] theorem active_reqWon  : (Frame.reqWon).active = true := rfl
@[simp, grind =] theorem holds_reqWon  : (Frame.reqWon).holds = true := rfl
@[simp, grind =] theorem running_reqWon  : (Frame.reqWon).isRunning = false := rfl
@[simp, grind =] theorem cur_reqWon  : (Frame.reqWon).cur = none := rfl
@[simp, grind =] theorem key_reqWon  : (Frame.reqWon).key = .req := rfl
@[simp, grind =] theorem active_reqLoop  : (Frame.reqLoop).active = true := rfl
@[simp, grind =] theorem holds_reqLoop  : (Frame.reqLoop).holds = true := rfl
@[simp, grind =] theorem running_reqLoop  : (Frame.reqLoop).isRunning = false := rfl
@[simp, grind =] theorem cur_reqLoop  : (Frame.reqLoop).cur = none := rfl
@[simp, grind =] theorem key_reqLoop  : (Frame.reqLoop).key = .req := rfl
@[simp, grind =] theorem active_reqExec (c : Cb) : (Frame.reqExec c).active = true := rfl
@[simp, grind =] theorem holds_reqExec (c : Cb) : (Frame.reqExec c).holds = false := rfl
@[simp, grind =] theorem running_reqExec (c : Cb) : (Frame.reqExec c).isRunning = false := rfl
@[simp, grind =] theorem cur_reqExec (c : Cb) : (Frame.reqExec c).cur = some c := rfl
@[simp, grind =] theorem key_reqExec (c : Cb) : (Frame.reqExec c).key = .req := rfl
@[simp, grind =] theorem active_reqRunning (c : Cb) : (Frame.reqRunning c).active = true := rfl
@[simp, grind =] theorem holds_reqRunning (c : Cb) : (Frame.reqRunning c).holds = false := rfl
@[simp, grind =] theorem running_reqRunning (c : Cb) : (Frame.reqRunning c).isRunning = true := rfl
@[simp, grind =] theorem cur_reqRunning (c : Cb) : (Frame.reqRunning c).cur = some c := rfl
@[simp, grind =] theorem key_reqRunning (c : Cb) : (Frame.reqRunning c).key = .req := rfl
@[simp, grind =] theorem active_reqAfter (c : Cb) : (Frame.reqAfter c).active = true := rfl
@[simp, grind =] theorem holds_reqAfter (c : Cb) : (Frame.reqAfter c).holds = false := rfl
@[simp, grind =] theorem running_reqAfter (c : Cb) : (Frame.reqAfter c).isRunning = false := rfl
@[simp, grind =] theorem cur_reqAfter (c : Cb) : (Frame.reqAfter c).cur = some c := rfl
@[simp, grind =] theorem key_reqAfter (c : Cb) : (Frame.reqAfter c).key = .req := rfl
@[simp, grind =] theorem active_reqMark (c : Cb) : (Frame.reqMark c).active = true := rfl
@[simp, grind =] theorem holds_reqMark (c : Cb) : (Frame.reqMark c).holds = false := rfl
@[simp, grind =] theorem running_reqMark (c : Cb) : (Frame.reqMark c).isRunning = false := rfl
@[simp, grind =] theorem cur_reqMark (c : Cb) : (Frame.reqMark c).cur = some c := rfl
@[simp, grind =] theorem key_reqMark (c : Cb) : (Frame.reqMark c).key = .req := rfl
@[simp, grind =] theorem active_reqRelock  : (Frame.reqRelock).active = true := rfl
@[simp, grind =] theorem holds_reqRelock  : (Frame.reqRelock).holds = false := rfl
@[simp, grind =] theorem running_reqRelock  : (Frame.reqRelock).isRunning = false := rfl
@[simp, grind =] theorem cur_reqRelock  : (Frame.reqRelock).cur = none := rfl
@[simp, grind =] theorem key_reqRelock  : (Frame.reqRelock).key = .req := rfl
@[simp, grind =] theorem active_addTry (c : Cb) : (Frame.addTry c).active = false := rfl
@[simp, grind =] theorem holds_addTry (c : Cb) : (Frame.addTry c).holds = false := rfl
@[simp, grind =] theorem running_addTry (c : Cb) : (Frame.addTry c).isRunning = false := rfl
@[simp, grind =] theorem cur_addTry (c : Cb) : (Frame.addTry c).cur = none := rfl
@[simp, grind =] theorem key_addTry (c : Cb) : (Frame.addTry c).key = (.add c) := rfl
@[simp, grind =] theorem active_addLocked (c : Cb) : (Frame.addLocked c).active = false := rfl
@[simp, grind =] theorem holds_addLocked (c : Cb) : (Frame.addLocked c).holds = true := rfl
@[simp, grind =] theorem running_addLocked (c : Cb) : (Frame.addLocked c).isRunning = false := rfl
@[simp, grind =] theorem cur_addLocked (c : Cb) : (Frame.addLocked c).cur = none := rfl
@[simp, grind =] theorem key_addLocked (c : Cb) : (Frame.addLocked c).key = (.add c) := rfl
@[simp, grind =] theorem active_addInline (c : Cb) : (Frame.addInline c).active = false := rfl
@[simp, grind =] theorem holds_addInline (c : Cb) : (Frame.addInline c).holds = false := rfl
@[simp, grind =] theorem running_addInline (c : Cb) : (Frame.addInline c).isRunning = true := rfl
@[simp, grind =] theorem cur_addInline (c : Cb) : (Frame.addInline c).cur = none := rfl
@[simp, grind =] theorem key_addInline (c : Cb) : (Frame.addInline c).key = (.add c) := rfl
@[simp, grind =] theorem active_rmLock (c : Cb) : (Frame.rmLock c).active = false := rfl
@[simp, grind =] theorem holds_rmLock (c : Cb) : (Frame.rmLock c).holds = false := rfl
@[simp, grind =] theorem running_rmLock (c : Cb) : (Frame.rmLock c).isRunning = false := rfl
@[simp, grind =] theorem cur_rmLock (c : Cb) : (Frame.rmLock c).cur = none := rfl
@[simp, grind =] theorem key_rmLock (c : Cb) : (Frame.rmLock c).key = (.rm c) := rfl
@[simp, grind =] theorem active_rmLocked (c : Cb) : (Frame.rmLocked c).active = false := rfl
@[simp, grind =] theorem holds_rmLocked (c : Cb) : (Frame.rmLocked c).holds = true := rfl
@[simp, grind =] theorem running_rmLocked (c : Cb) : (Frame.rmLocked c).isRunning = false := rfl
@[simp, grind =] theorem cur_rmLocked (c : Cb) : (Frame.rmLocked c).cur = none := rfl
@[simp, grind =] theorem key_rmLocked (c : Cb) : (Frame.rmLocked c).key = (.rm c) := rfl
@[simp, grind =] theorem active_rmElse (c : Cb) (n : Option Tid) : (Frame.rmElse c n).active = false := rfl
@[simp, grind =] theorem holds_rmElse (c : Cb) (n : Option Tid) : (Frame.rmElse c n).holds = false := rfl
@[simp, grind =] theorem running_rmElse (c : Cb) (n : Option Tid) : (Frame.rmElse c n).isRunning = false := rfl
@[simp, grind =] theorem cur_rmElse (c : Cb) (n : Option Tid) : (Frame.rmElse c n).cur = none := rfl
@[simp, grind =] theorem key_rmElse (c : Cb) (n : Option Tid) : (Frame.rmElse c n).key = (.rm c) := rfl
@[simp, grind =] theorem active_rmSelf (c : Cb) : (Frame.rmSelf c).active = false := rfl
@[simp, grind =] theorem holds_rmSelf (c : Cb) : (Frame.rmSelf c).holds = false := rfl
@[simp, grind =] theorem running_rmSelf (c : Cb) : (Frame.rmSelf c).isRunning = false := rfl
@[simp, grind =] theorem cur_rmSelf (c : Cb) : (Frame.rmSelf c).cur = none := rfl
@[simp, grind =] theorem key_rmSelf (c : Cb) : (Frame.rmSelf c).key = (.rm c) := rfl
@[simp, grind =] theorem active_rmWait (c : Cb) : (Frame.rmWait c).active = false := rfl
@[simp, grind =] theorem holds_rmWait (c : Cb) : (Frame.rmWait c).holds = false := rfl
@[simp, grind =] theorem running_rmWait (c : Cb) : (Frame.rmWait c).isRunning = false := rfl
@[simp, grind =] theorem cur_rmWait (c : Cb) : (Frame.rmWait c).cur = none := rfl
@[simp, grind =] theorem key_rmWait (c : Cb) : (Frame.rmWait c).key = (.rm c) := rfl

def Life.reg : Life → Bool
  | .alive | .destroying _ => true
  | _ => false

@[simp, grind =] theorem reg_unborn : Life.unborn.reg = false := rfl
@[simp, grind =] theorem reg_constructing (t) : (Life.constructing t).reg = false := rfl
@[simp, grind =] theorem reg_alive : Life.alive.reg = true := rfl
@[simp, grind =] theorem reg_aliveInline : Life.aliveInline.reg = false := rfl
@[simp, grind =] theorem reg_destroying (t) : (Life.destroying t).reg = true := rfl
@[simp, grind =] theorem reg_dead (t) : (Life.dead t).reg = false := rfl
@[simp, grind =] theorem isDead_unborn : Life.unborn.isDead = false := rfl
@[simp, grind =] theorem isDead_constructing (t) : (Life.constructing t).isDead = false := rfl
@[simp, grind =] theorem isDead_alive : Life.alive.isDead = false := rfl
@[simp, grind =] theorem isDead_aliveInline : Life.aliveInline.isDead = false := rfl
@[simp, grind =] theorem isDead_destroying (t) : (Life.destroying t).isDead = false := rfl
@[simp, grind =] theorem isDead_dead (t) : (Life.dead t).isDead = true := rfl

theorem isDead_of_reg {l : Life} (h : l.reg = true) : l.isDead = false := by
  cases l <;> simp_all

/-- `request_stop` is currently handling callback `c` on some thread. -/
def HasCur (stk : Tid → List Frame) (c : Cb) : Prop := ∃ t f, f ∈ stk t ∧ f.cur = some c

theorem HasCur.upd {stk : Tid → List Frame} {t : Tid} {l l' : List Frame} {c : Cb}
    (h : HasCur stk c) (hk : stk t = l)
    (hl : ∀ f ∈ l, f.cur = some c → ∃ g ∈ l', g.cur = some c) : HasCur (upd stk t l') c := by
  obtain ⟨t1, f, hf, hc⟩ := h
  by_cases ht : t1 = t
  · subst ht
    obtain ⟨g, hg, hgc⟩ := hl f (hk ▸ hf) hc
    exact ⟨t1, g, by simpa using hg, hgc⟩
  · exact ⟨t1, f, by rw [upd_other _ _ ht]; exact hf, hc⟩

/-- Replace the innermost frame by one with the same current callback. -/
theorem HasCur.repl {stk : Tid → List Frame} {t : Tid} {f f' : Frame} {r : List Frame} {c : Cb}
    (h : HasCur stk c) (hk : stk t = f :: r) (hc : f.cur = some c → f'.cur = some c) :
    HasCur (Verif.upd stk t (f' :: r)) c := by
  refine h.upd hk ?_
  intro g hg hgc
  rcases List.mem_cons.1 hg with rfl | hg
  · exact ⟨f', by simp, hc hgc⟩
  · exact ⟨g, by simp [hg], hgc⟩

theorem HasCur.pop {stk : Tid → List Frame} {t : Tid} {f : Frame} {r : List Frame} {c : Cb}
    (h : HasCur stk c) (hk : stk t = f :: r) (hc : f.cur ≠ some c) :
    HasCur (Verif.upd stk t r) c := by
  refine h.upd hk ?_
  intro g hg hgc
  rcases List.mem_cons.1 hg with rfl | hg
  · exact absurd hgc hc
  · exact ⟨g, hg, hgc⟩

theorem HasCur.push {stk : Tid → List Frame} {t : Tid} {f : Frame} {c : Cb}
    (h : HasCur stk c) : HasCur (Verif.upd stk t (f :: stk t)) c :=
  h.upd rfl (fun g hg hgc => ⟨g, by simp [hg], hgc⟩)

theorem HasCur.top {stk : Tid → List Frame} {t : Tid} {f : Frame} {r : List Frame} {c : Cb}
    (hc : f.cur = some c) : HasCur (Verif.upd stk t (f :: r)) c := ⟨t, f, by simp, hc⟩

theorem nodup_repl {stk : Tid → List Frame} {t : Tid} {f f' : Frame} {r : List Frame}
    (h : ∀ t, ((stk t).map Frame.key).Nodup) (hk : stk t = f :: r) (hkey : f'.key = f.key) :
    ∀ t', ((upd stk t (f' :: r) t').map Frame.key).Nodup := by
  intro t'
  by_cases ht : t' = t
  · subst ht; have := h t'; simp only [hk] at this; simpa [hkey] using this
  · rw [upd_other _ _ ht]; exact h t'

theorem nodup_new {stk : Tid → List Frame} {t : Tid} {f : Frame} {r : List Frame}
    (h : ∀ t, ((stk t).map Frame.key).Nodup) (hr : (r.map Frame.key).Nodup)
    (hkey : ∀ g ∈ r, g.key ≠ f.key) :
    ∀ t', ((upd stk t (f :: r) t').map Frame.key).Nodup := by
  intro t'
  by_cases ht : t' = t
  · subst ht; simp [hr]; exact fun g hg => fun he => hkey g hg (by simpa using he)
  · rw [upd_other _ _ ht]; exact h t'

theorem nodup_pop {stk : Tid → List Frame} {t : Tid} {f : Frame} {r : List Frame}
    (h : ∀ t, ((stk t).map Frame.key).Nodup) (hk : stk t = f :: r) :
    ∀ t', ((upd stk t r t').map Frame.key).Nodup := by
  intro t'
  by_cases ht : t' = t
  · subst ht; have := h t'; simp only [hk] at this; simp at this; simp [this.2]
  · rw [upd_other _ _ ht]; exact h t'

theorem active_of_cur {f : Frame} {c : Cb} (h : f.cur = some c) : f.active = true := by
  cases f <;> simp_all

theorem active_of_key {f : Frame} (h : f.key = .req) : f.active = true := by
  cases f <;> simp_all

structure Inv (s : St) : Prop where
  tail : ∀ t f r, s.stk t = f :: r → ∀ g ∈ r, g.isRunning = true
  nodup : ∀ t, ((s.stk t).map Frame.key).Nodup
  stopWin : s.stop = true ↔ s.win.isSome = true
  act : ∀ t f, f ∈ s.stk t → f.active = true → s.win = some t ∧ wins s.log = 0
  notif : ∀ t f, f ∈ s.stk t → f.active = true → f ≠ .reqWon → s.notifying = some t
  notif2 : ∀ w, s.notifying = some w → s.win = some w
  winsLe : wins s.log ≤ 1
  retStop : ∀ t b, Event.reqRet t b ∈ s.log → s.stop = true
  invStop : ∀ t c, Event.invoke t c ∈ s.log → s.stop = true
  retDone : wins s.log ≠ 0 → s.callbacks = []
  lk : s.locked = true ↔ s.holder.isSome = true
  hold : ∀ t f, f ∈ s.stk t → f.holds = true → s.holder = some t
  list : ∀ c, c ∈ s.callbacks ↔ s.linked c = true
  listNodup : s.callbacks.Nodup
  linkedOk : ∀ c, s.linked c = true → (s.life c).reg = true ∧ invs s.log c = 0 ∧
    s.completed c = false ∧ s.rptr c = false
  invLe : ∀ c, invs s.log c ≤ 1
  cUnborn : ∀ c, s.life c = .unborn → invs s.log c = 0 ∧ s.linked c = false ∧
    s.completed c = false ∧ s.rptr c = false
  cConstr : ∀ c t, s.life c = .constructing t → s.linked c = false ∧
    s.completed c = false ∧ s.rptr c = false
  cInline : ∀ c, s.life c = .aliveInline → s.linked c = false ∧ invs s.log c = 1
  cDead : ∀ c t, s.life c = .dead t → s.linked c = false
  fExec : ∀ t c, Frame.reqExec c ∈ s.stk t → (s.life c).reg = true ∧ s.linked c = false ∧
    s.completed c = false ∧ s.rptr c = false ∧ invs s.log c = 0
  fRun : ∀ t c, Frame.reqRunning c ∈ s.stk t → s.linked c = false ∧ s.completed c = false ∧
    s.rptr c = true ∧ invs s.log c = 1 ∧
    ((s.flag c = false ∧ (s.life c).reg = true) ∨ (s.flag c = true ∧ s.life c = .dead t))
  fAfter : ∀ t c, Frame.reqAfter c ∈ s.stk t → s.linked c = false ∧ s.completed c = false ∧
    s.rptr c = true ∧ invs s.log c = 1 ∧
    ((s.flag c = false ∧ (s.life c).reg = true) ∨ (s.flag c = true ∧ s.life c = .dead t))
  fMark : ∀ t c, Frame.reqMark c ∈ s.stk t → (s.life c).reg = true ∧ s.linked c = false ∧
    s.completed c = false ∧ s.rptr c = false ∧ invs s.log c = 1
  fAddTry : ∀ t c, Frame.addTry c ∈ s.stk t → s.life c = .constructing t ∧ invs s.log c = 0
  fAddLocked : ∀ t c, Frame.addLocked c ∈ s.stk t → s.life c = .constructing t ∧
    invs s.log c = 0 ∧ s.stop = false
  fAddInline : ∀ t c, Frame.addInline c ∈ s.stk t → s.life c = .constructing t ∧ invs s.log c = 1
  fRmLock : ∀ t c, Frame.rmLock c ∈ s.stk t → s.life c = .destroying t
  fRmLocked : ∀ t c, Frame.rmLocked c ∈ s.stk t → s.life c = .destroying t
  fRmElse : ∀ t c n, Frame.rmElse c n ∈ s.stk t → s.life c = .destroying t ∧
    s.linked c = false ∧ n = s.win
  fRmSelf : ∀ t c, Frame.rmSelf c ∈ s.stk t → s.life c = .destroying t ∧
    s.linked c = false ∧ s.win = some t
  fRmWait : ∀ t c, Frame.rmWait c ∈ s.stk t → s.life c = .destroying t ∧
    s.linked c = false ∧ s.win ≠ some t
  regs : ∀ c, (s.life c).reg = true → s.linked c = false →
    (s.completed c = true ∧ s.rptr c = false ∧ invs s.log c = 1) ∨ HasCur s.stk c
  notifOk : ∀ c, (s.life c).reg = true → s.linked c = false → s.notifying = s.win
  noub : s.ub = false

theorem inv_init : Inv init := by
  constructor <;> simp [init, invs, wins]

end Verif.StopSource
