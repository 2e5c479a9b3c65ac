import Verif.Lemma.Common

/-!
Model of the asynchronous reader/writer lock. Source: `/repo/src/utils/utils_async_lock.c`.
Every spin-lock section is one atomic step. Simplification: `rd` does not wrap around 2^32.
-/

namespace Verif.AsyncLock

/-- One lock request, `struct ocf_async_lock_waiter` (`/repo/src/utils/utils_async_lock.c:9-14`);
`id` tells requests apart. -/
structure Waiter where
  id : Nat
  write : Bool
deriving DecidableEq, Repr

/-- `struct ocf_async_lock` (`/repo/src/utils/utils_async_lock.h:11-17`) and its users:
`batches` = lists collected by unlockers, not yet completed; `fast` = granted at once, completion
callback not yet called; `active` = granted and told so; `failing` = taken off by deinit, not yet
told; histories: `queued` = requests that had to wait, in arrival order; `okWait` = completed
waiters; `okFast`, `failed`; `requested` = all asynchronous requests; `bug` = an `ENV_BUG_ON`. -/
structure State where
  rd : Nat
  wr : Nat
  waiters : List Waiter
  batches : List (List Waiter)
  fast : List Waiter
  active : List Waiter
  failing : List Waiter
  dead : Bool
  bug : Bool
  used : List Nat
  requested : List Waiter
  queued : List Waiter
  okWait : List Waiter
  okFast : List Waiter
  failed : List Waiter

/-- `ocf_async_lock_init`, `/repo/src/utils/utils_async_lock.c:49-63`. -/
def init : State := ⟨0, 0, [], [], [], [], [], false, false, [], [], [], [], [], []⟩

/-- `_ocf_async_lock_collect_waiters`, `/repo/src/utils/utils_async_lock.c:16-33`: returns
(collected, left waiting, rd, wr). -/
def collect (rd wr : Nat) : List Waiter → List Waiter × List Waiter × Nat × Nat
  | [] => ([], [], rd, wr)
  | w :: ws =>
    if !w.write then
      let r := collect (rd + 1) wr ws
      (w :: r.1, r.2)
    else if rd = 0 then ([w], ws, rd, 1)
    else ([], w :: ws, rd, wr)

/-- `_ocf_async_trylock` / `_ocf_async_read_trylock`,
`/repo/src/utils/utils_async_lock.c:107-114,168-175`: may the request be granted now? -/
def free (s : State) (write : Bool) : Bool :=
  if write then s.wr == 0 && s.rd == 0 else s.wr == 0 && s.waiters.isEmpty

/-- Effect of a successful try (same lines, `/repo/src/utils/utils_async_lock.c:112,173`). -/
def take (s : State) (write : Bool) : State :=
  if write then { s with wr := 1 } else { s with rd := s.rd + 1 }

/-- `ocf_async_lock` / `ocf_async_read_lock`, `/repo/src/utils/utils_async_lock.c:116-135,177-196`. -/
def lock (s : State) (w : Waiter) : State :=
  if free s w.write then
    { take s w.write with fast := s.fast ++ [w], used := w.id :: s.used,
                          requested := s.requested ++ [w] }
  else
    { s with waiters := s.waiters ++ [w], used := w.id :: s.used, requested := s.requested ++ [w],
             queued := s.queued ++ [w] }

/-- Successful `ocf_async_trylock` / `ocf_async_read_trylock`,
`/repo/src/utils/utils_async_lock.c:137-146,198-207`. -/
def tryLock (s : State) (w : Waiter) : State :=
  if free s w.write then { take s w.write with active := s.active ++ [w], used := w.id :: s.used }
  else s

/-- Collecting waiters after a release and handing them to the releasing thread
(`/repo/src/utils/utils_async_lock.c:161-165,225-229`). -/
def release (s : State) : State :=
  let c := collect s.rd s.wr s.waiters
  { s with rd := c.2.2.1, wr := c.2.2.2, waiters := c.2.1, batches := s.batches ++ [c.1] }

/-- `ocf_async_unlock`, `/repo/src/utils/utils_async_lock.c:148-166`, by writer `w`. -/
def unlock (s : State) (w : Waiter) : State :=
  release { s with bug := s.bug || s.rd != 0 || s.wr == 0, wr := 0, active := s.active.erase w }

/-- `ocf_async_read_unlock`, `/repo/src/utils/utils_async_lock.c:209-230`, by reader `w`. -/
def readUnlock (s : State) (w : Waiter) : State :=
  let s := { s with bug := s.bug || s.rd == 0 || s.wr != 0, rd := s.rd - 1,
                    active := s.active.erase w }
  if s.rd ≠ 0 then s else release s

/-- `ocf_async_lock_deinit`, `/repo/src/utils/utils_async_lock.c:65-80`. -/
def deinit (s : State) : State :=
  { s with failing := s.waiters, waiters := [], dead := true }

/-- All steps of all callers (`/repo/src/utils/utils_async_lock.c:35-47,65-80,116-230`).
`complete b`: the thread owning batch `b` calls the next completion (`:35-47`). A holder unlocks
only after it was told it has the lock. No call other than completions follows deinit. -/
inductive Step : State → State → Prop
  | lock (s : State) (w : Waiter) : s.dead = false → w.id ∉ s.used → Step s (lock s w)
  | tryLock (s : State) (w : Waiter) : s.dead = false → w.id ∉ s.used → Step s (tryLock s w)
  | fastCb (s : State) (w : Waiter) : w ∈ s.fast →
      Step s { s with fast := s.fast.erase w, active := s.active ++ [w], okFast := s.okFast ++ [w] }
  | complete (s : State) (b : Nat) (w : Waiter) (ws : List Waiter) : s.batches[b]? = some (w :: ws) →
      Step s { s with batches := s.batches.set b ws, active := s.active ++ [w],
                      okWait := s.okWait ++ [w] }
  | unlock (s : State) (w : Waiter) : s.dead = false → w ∈ s.active → w.write = true →
      Step s (unlock s w)
  | readUnlock (s : State) (w : Waiter) : s.dead = false → w ∈ s.active → w.write = false →
      Step s (readUnlock s w)
  | deinit (s : State) : s.dead = false → Step s (deinit s)
  | failCb (s : State) (w : Waiter) (ws : List Waiter) : s.failing = w :: ws →
      Step s { s with failing := ws, failed := s.failed ++ [w] }

end Verif.AsyncLock
