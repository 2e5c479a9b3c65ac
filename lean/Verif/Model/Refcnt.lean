import Verif.Lemma.Common

/-!
Model of freezable reference counters, one step per atomic operation.
Source: `/repo/env/posix/ocf_env_refcnt.c`. Simplification: `int` counters do not overflow.
-/

namespace Verif.Refcnt

/-- Program counter of a user thread in `env_refcnt_inc`/`env_refcnt_dec`
(`/repo/env/posix/ocf_env_refcnt.c:24-46`): `out`; `checked` = first read of `freeze` was 0;
`incd` = incremented, second read due; `inside` = `inc` returned true; `backing` = second read
saw a freeze, decrement due; `zero` = own decrement returned 0, `cmpxchg` due. -/
inductive UPC
  | out | checked | incd | inside | backing | zero
deriving DecidableEq, Repr

/-- Program counter of the quiescing thread: `env_refcnt_freeze` then
`env_refcnt_register_zero_cb` (`/repo/env/posix/ocf_env_refcnt.c:49-65`), then waiting for the
callback, then `env_refcnt_unfreeze` (`:67-71`). -/
inductive MPC
  | idle | frozen | refd | armed | zero | waiting
deriving DecidableEq, Repr

/-- `struct env_refcnt` (`/repo/env/posix/ocf_env_refcnt.h:14-21`) and the threads. `bug`: an
`ENV_BUG_ON` fired. `regs`: callbacks registered. `fired`: one entry per callback run, the number
of users inside at that moment. -/
structure State where
  counter : Int
  freeze : Nat
  callback : Bool
  users : List UPC
  m : MPC
  bug : Bool
  regs : Nat
  fired : List Nat
deriving DecidableEq, Repr

/-- `env_refcnt_init`, `/repo/env/posix/ocf_env_refcnt.c:9-17`, with `n` user threads. -/
def init (n : Nat) : State := ⟨0, 0, false, List.replicate n .out, .idle, false, 0, []⟩

/-- Users that got in. Counted when the callback runs (`/repo/env/posix/ocf_env_refcnt.c:29-30`). -/
def inside (s : State) : Nat := s.users.countP (· == .inside)

/-- `env_atomic_cmpxchg(&rc->callback, 1, 0)` and, on success, the callback
(`/repo/env/posix/ocf_env_refcnt.c:29-30`). -/
def tryFire (s : State) : State :=
  if s.callback then { s with callback := false, fired := s.fired ++ [inside s] } else s

/-- The decrement of `env_refcnt_dec` by user `i`, `/repo/env/posix/ocf_env_refcnt.c:26-29`. -/
def userDec (s : State) (i : Nat) : State :=
  let v := s.counter - 1
  { s with counter := v, bug := s.bug || decide (v < 0),
           users := s.users.set i (if v = 0 then .zero else .out) }

/-- Atomic steps; every line of `env_refcnt_inc`/`dec`/`freeze`/`register_zero_cb`/`unfreeze`
touching a shared atomic is one step (`/repo/env/posix/ocf_env_refcnt.c:24-71`). -/
inductive Step : State → State → Prop
  | check (s : State) (i : Nat) : s.users[i]? = some .out → s.freeze = 0 →
      Step s { s with users := s.users.set i .checked }
  | inc (s : State) (i : Nat) : s.users[i]? = some .checked →
      Step s { s with counter := s.counter + 1, users := s.users.set i .incd }
  | enter (s : State) (i : Nat) : s.users[i]? = some .incd → s.freeze = 0 →
      Step s { s with users := s.users.set i .inside }
  | back (s : State) (i : Nat) : s.users[i]? = some .incd → s.freeze ≠ 0 →
      Step s { s with users := s.users.set i .backing }
  | leave (s : State) (i : Nat) : s.users[i]? = some .inside → Step s (userDec s i)
  | unback (s : State) (i : Nat) : s.users[i]? = some .backing → Step s (userDec s i)
  | fire (s : State) (i : Nat) : s.users[i]? = some .zero →
      Step s { tryFire s with users := s.users.set i .out }
  | mFreeze (s : State) : s.m = .idle → Step s { s with freeze := s.freeze + 1, m := .frozen }
  | mInc (s : State) : s.m = .frozen →
      Step s { s with counter := s.counter + 1, m := .refd,
                      bug := s.bug || s.freeze == 0 || s.callback }
  | mArm (s : State) : s.m = .refd →
      Step s { s with callback := true, m := .armed, regs := s.regs + 1 }
  | mDec (s : State) : s.m = .armed →
      Step s { s with counter := s.counter - 1, bug := s.bug || decide (s.counter - 1 < 0),
                      m := if s.counter - 1 = 0 then .zero else .waiting }
  | mFire (s : State) : s.m = .zero → Step s { tryFire s with m := .waiting }
  | mUnfreeze (s : State) : s.m = .waiting → s.fired.length = s.regs →
      Step s { s with freeze := s.freeze - 1, bug := s.bug || s.freeze == 0, m := .idle }

/-- The same steps, but the callback is armed (`/repo/env/posix/ocf_env_refcnt.c:63`) only while no
user is between its decrement to zero and its `cmpxchg` (`:26-29`). -/
def CalmStep (s t : State) : Prop :=
  Step s t ∧ (s.m = .refd → t.m = .armed → ∀ u ∈ s.users, u ≠ .zero)

end Verif.Refcnt
