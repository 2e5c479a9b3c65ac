import Verif.Model.AsyncLock

/-!
The management lock of a cache and the life of the cache: references, lock and trylock, stop and the
final free; `/repo/src/mngt/ocf_mngt_common.c` and `/repo/src/mngt/ocf_mngt_cache.c`, over the lock
of `/repo/src/utils/utils_async_lock.c` (model `Verif.AsyncLock`).
-/

namespace Verif.MngtLock

open Verif.AsyncLock (Waiter collect)

/-- Where a task is in a call. `lk1`: `_ocf_mngt_cache_lock` has a reference of the cache,
`lk2`: and of `refcnt.lock`; `lk3`: after `lock_fn`; `nm`: without memory, after putting `refcnt.lock`
(`/repo/src/mngt/ocf_mngt_common.c:230-263`). `t1`, `t2`, `t3`, `tEnd`: `_ocf_mngt_cache_trylock` with a
reference of the cache, and of `refcnt.lock`, and the lock, and at `out`
(`/repo/src/mngt/ocf_mngt_common.c:265-292`). `unl`: `_ocf_mngt_cache_unlock` after `unlock_fn`
(`/repo/src/mngt/ocf_mngt_common.c:294-299`). `stop0`: `ocf_mngt_cache_stop` before
`ocf_mngt_cache_remove`; `stop2`: in it after `ocf_mngt_cache_lock_deinit`; `stop3`: after the freeze;
`stop4`: before the last put (`/repo/src/mngt/ocf_mngt_cache.c:2341-2413`). -/
inductive Pc
  | idle
  | lk1 (w : Waiter)
  | lk2 (w : Waiter)
  | nm (w : Waiter)
  | lk3
  | t1 (w : Waiter)
  | t2 (w : Waiter)
  | t3 (w : Waiter)
  | tEnd
  | unl
  | stop0
  | stop2
  | stop3
  | stop4
deriving DecidableEq, Repr

/-- A user's thread: the references of the cache it has (`ocf_mngt_cache_get`,
`/repo/src/mngt/ocf_mngt_common.c:390-401`), its place, and its place in the callback of `refcnt.lock`
if it runs that (`_ocf_mngt_cache_lock_deinit`, `/repo/src/mngt/ocf_mngt_common.c:317-324`): 1 before,
2 and 3 after its first and second call, 0 not in it. -/
structure Task where
  own : Nat
  pc : Pc
  dn : Nat
deriving DecidableEq, Repr

/-- A cache, `struct ocf_cache`, `/repo/src/ocf_cache_priv.h:55-150`: `cref`, `cFrz`, `cCb` are the value, the
freeze and the registered callback of `refcnt.cache`, `lref`, `lFrz`, `lCb` those of `refcnt.lock`
(`/repo/env/posix/ocf_env_refcnt.h:13-20`); `rd`, `wr`, `q` the lock and its waiters; `grant` the waiters that got
the lock and `fail` those taken off by the end of the lock, whose completions are to run; `held` the
locks users were told they have; `stopping` the state bit; `inList` whether the cache is on the list of
its context; `base` the reference that `ocf_mngt_cache_start` leaves, `/repo/src/mngt/ocf_mngt_cache.c:921`.
`freed`: the cache is freed. Not in the code: `uaf`, a use after that; `dead`, the lock is destroyed; `deadUse`, a
lock or trylock of it after that; `deadUnl`, an unlock after that; `bug`, a failed assertion; `used`
and `told`, the lock calls and their outcomes; `leaked`, refusals at
`/repo/src/mngt/ocf_mngt_common.c:283-287`. -/
structure St where
  cref : Nat
  cFrz : Bool
  cCb : Bool
  lref : Nat
  lFrz : Bool
  lCb : Bool
  rd : Nat
  wr : Nat
  q : List Waiter
  grant : List Waiter
  fail : List Waiter
  held : List Waiter
  stopping : Bool
  inList : Bool
  base : Nat
  freed : Bool
  uaf : Bool
  dead : Bool
  deadUse : Bool
  deadUnl : Bool
  bug : Bool
  used : List Nat
  told : List (Nat × Bool)
  leaked : Nat
  tasks : List Task

/-- A use of the cache's memory, at any line of `/repo/src/mngt/ocf_mngt_common.c:141-401`. -/
def St.touch (s : St) : St := if s.freed then { s with uaf := true } else s

/-- The task's new state. A step of `/repo/src/mngt/ocf_mngt_common.c:205-299`. -/
def St.setT (s : St) (i : Nat) (t : Task) : St := { s with tasks := s.tasks.set i t }

/-- The outcome of a lock call reaches its caller, `/repo/src/mngt/ocf_mngt_common.c:228`,
`/repo/src/mngt/ocf_mngt_common.c:291`. -/
def St.tell (s : St) (w : Waiter) (ok : Bool) : St := { s with told := s.told ++ [(w.id, ok)] }

/-- `env_refcnt_dec(&cache->refcnt.cache)`, `/repo/env/posix/ocf_env_refcnt.c:24-31`: the last one runs
`_ocf_mngt_cache_dealloc`, `/repo/src/mngt/ocf_mngt_cache.c:2321-2339`, if it is registered. -/
def St.decC (s : St) : St :=
  if s.cref = 0 then { s with bug := true }
  else if s.cref = 1 ∧ s.cCb = true then { s with cref := 0, cCb := false, freed := true }
  else { s with cref := s.cref - 1 }

/-- `env_refcnt_dec(&cache->refcnt.lock)` by a task, `/repo/env/posix/ocf_env_refcnt.c:24-31`: the last one
runs `_ocf_mngt_cache_lock_deinit` if it is registered, before the task goes on. -/
def St.decL (s : St) (i : Nat) (t : Task) : St :=
  if s.lref = 0 then { s with bug := true }
  else if s.lref = 1 ∧ s.lCb = true then { s with lref := 0, lCb := false }.setT i { t with dn := 1 }
  else { s with lref := s.lref - 1 }.setT i t

/-- `_ocf_async_trylock` and `_ocf_async_read_trylock`, `/repo/src/utils/utils_async_lock.c:107-114` and
`/repo/src/utils/utils_async_lock.c:168-175`: whether the lock is free for `w`. -/
def St.free (s : St) (w : Waiter) : Bool :=
  if w.write then s.wr == 0 && s.rd == 0 else s.wr == 0 && s.q.isEmpty

/-- The lock taken, same lines: `/repo/src/utils/utils_async_lock.c:112` and
`/repo/src/utils/utils_async_lock.c:173`. -/
def St.take (s : St) (w : Waiter) : St :=
  if w.write then { s with wr := 1 } else { s with rd := s.rd + 1 }

/-- Waiters that may go on are taken off and their completions are run,
`/repo/src/utils/utils_async_lock.c:161-165` and `/repo/src/utils/utils_async_lock.c:225-229`. -/
def St.release (s : St) : St :=
  let c := collect s.rd s.wr s.q
  { s with rd := c.2.2.1, wr := c.2.2.2, q := c.2.1, grant := s.grant ++ c.1 }

/-- `ocf_async_unlock` and `ocf_async_read_unlock`, `/repo/src/utils/utils_async_lock.c:148-166` and
`/repo/src/utils/utils_async_lock.c:209-230`. -/
def St.unlockL (s : St) (w : Waiter) : St :=
  let s := if s.dead then { s with deadUnl := true } else s
  if w.write then
    if s.rd ≠ 0 ∨ s.wr = 0 then { s with bug := true } else St.release { s with wr := 0 }
  else
    if s.rd = 0 ∨ s.wr ≠ 0 then { s with bug := true }
    else if s.rd ≠ 1 then { s with rd := s.rd - 1 } else St.release { s with rd := 0 }

/-- A lock or trylock uses the lock, `/repo/src/utils/utils_async_lock.c:116-146`; noticed if it is
destroyed. -/
def St.useL (s : St) : St := if s.dead then { s with deadUse := true } else s

/-- `_ocf_mngt_cache_lock` and `_ocf_mngt_cache_trylock` until they have a reference of the cache,
`/repo/src/mngt/ocf_mngt_common.c:237-238` and `/repo/src/mngt/ocf_mngt_common.c:270-271`. -/
def St.call0 (s : St) (i : Nat) (t : Task) (w : Waiter) (tr : Bool) : St :=
  let s := { s.touch with used := s.touch.used ++ [w.id] }
  if s.cFrz then s.tell w false
  else { s with cref := s.cref + 1 }.setT i { t with pc := if tr then .t1 w else .lk1 w }

/-- Likewise until they have one of `refcnt.lock`, `/repo/src/mngt/ocf_mngt_common.c:240-243` and
`/repo/src/mngt/ocf_mngt_common.c:273-276`. -/
def St.call1 (s : St) (i : Nat) (t : Task) (w : Waiter) (tr : Bool) : St :=
  let s := s.touch
  if s.lFrz then (s.decC.tell w false).setT i { t with pc := .idle }
  else { s with lref := s.lref + 1 }.setT i { t with pc := if tr then .t2 w else .lk2 w }

/-- The rest of `_ocf_mngt_cache_lock`, `/repo/src/mngt/ocf_mngt_common.c:245-261`, with `ocf_async_lock` and
`ocf_async_read_lock`, `/repo/src/utils/utils_async_lock.c:116-135` and
`/repo/src/utils/utils_async_lock.c:177-196`; `ok` tells whether there is memory for the waiter. The
completion of a lock got at once is left to a later step. -/
def St.lock2 (s : St) (i : Nat) (t : Task) (w : Waiter) (ok : Bool) : St :=
  let s := s.touch
  if ok then
    let s := s.useL
    if s.free w then { s.take w with grant := s.grant ++ [w] }.setT i { t with pc := .lk3 }
    else { s with q := s.q ++ [w] }.setT i { t with pc := .lk3 }
  else s.decL i { t with pc := .nm w }

/-- `ocf_mngt_cache_put` without memory, `/repo/src/mngt/ocf_mngt_common.c:249-251`. -/
def St.lockNm (s : St) (i : Nat) (t : Task) (w : Waiter) : St :=
  (s.touch.decC.tell w false).setT i { t with pc := .idle }

/-- `trylock_fn`, `/repo/src/mngt/ocf_mngt_common.c:278-282`. -/
def St.try2 (s : St) (i : Nat) (t : Task) (w : Waiter) : St :=
  let s := s.touch.useL
  if s.free w then (s.take w).setT i { t with pc := .t3 w }
  else (s.decC.tell w false).setT i { t with pc := .tEnd }

/-- The test of the state, `/repo/src/mngt/ocf_mngt_common.c:283-287`: a refusal unlocks, and does not put the
cache. -/
def St.try3 (s : St) (i : Nat) (t : Task) (w : Waiter) : St :=
  let s := s.touch
  if s.stopping then
    let s := s.unlockL w
    ({ s with leaked := s.leaked + 1 }.tell w false).setT i { t with pc := .tEnd }
  else ({ s with held := s.held ++ [w] }.tell w true).setT i { t with pc := .tEnd }

/-- `_ocf_mngt_cache_lock_complete` of a lock that was got, `/repo/src/mngt/ocf_mngt_common.c:205-229`. -/
def St.done (s : St) (w : Waiter) : St :=
  let s := { s.touch with grant := s.touch.grant.erase w }
  if s.stopping then ((s.unlockL w).decC).tell w false
  else { s with held := s.held ++ [w] }.tell w true

/-- `_ocf_mngt_cache_lock_complete` with an error, `/repo/src/mngt/ocf_mngt_common.c:214-217`. -/
def St.failed (s : St) (w : Waiter) : St :=
  ({ s.touch with fail := s.touch.fail.erase w } : St).decC.tell w false

/-- `_ocf_mngt_cache_unlock`, `/repo/src/mngt/ocf_mngt_common.c:294-299`, first line. -/
def St.unlock (s : St) (i : Nat) (t : Task) (w : Waiter) : St :=
  (St.unlockL { s.touch with held := s.touch.held.erase w } w).setT i { t with pc := .unl }

/-- `ocf_mngt_cache_lock_deinit`, `/repo/src/mngt/ocf_mngt_common.c:326-335`, from `ocf_mngt_cache_remove`;
registering the callback runs it at once if the counter is zero
(`/repo/env/posix/ocf_env_refcnt.c:54-65`). -/
def St.remove1 (s : St) (i : Nat) (t : Task) : St :=
  let s := s.touch
  if s.cFrz ∨ s.lCb then { s with bug := true }
  else if s.lref = 0 then { s with cref := s.cref + 1, lFrz := true }.setT i { t with pc := .stop2, dn := 1 }
  else { s with cref := s.cref + 1, lFrz := true, lCb := true }.setT i { t with pc := .stop2 }

/-- The freeze and registration in `ocf_mngt_cache_remove`, `/repo/src/mngt/ocf_mngt_cache.c:2346-2349`. -/
def St.remove2 (s : St) (i : Nat) (t : Task) : St :=
  let s := s.touch
  if s.cCb then { s with bug := true }
  else if s.cref = 0 then { s with cFrz := true, freed := true }.setT i { t with pc := .stop3 }
  else { s with cFrz := true, cCb := true }.setT i { t with pc := .stop3 }

/-- Taking a reference, `_ocf_mngt_cache_try_get`, `/repo/src/mngt/ocf_mngt_common.c:390-401`. -/
def St.get (s : St) (i : Nat) (t : Task) : St :=
  let s := s.touch
  if s.cFrz then s else { s with cref := s.cref + 1 }.setT i { t with own := t.own + 1 }

/-- The steps of all tasks, each cited with its function. The rules of callers: a task that calls
lock, trylock or get by handle has a reference during the call; stop is called by a holder of the
write lock, not twice; unlock by a holder. `name` is `ocf_mngt_cache_get_by_name`,
`/repo/src/mngt/ocf_mngt_common.c:155-189`, which finds only caches on the list. `stopErr` is the end of
`ocf_mngt_cache_stop_finish` after an error, `/repo/src/mngt/ocf_mngt_cache.c:2373-2379`. `off` takes the
cache off the list, `/repo/src/mngt/ocf_mngt_cache.c:2355-2358`; `stop4` is the last put,
`/repo/src/mngt/ocf_mngt_cache.c:2409-2412`. `dn1`, `dn2` and `dn3` are `ocf_async_lock_deinit`
(`/repo/src/utils/utils_async_lock.c:65-80`), the put and `env_refcnt_deinit` in
`_ocf_mngt_cache_lock_deinit`, `/repo/src/mngt/ocf_mngt_common.c:321-323`. -/
inductive Step : St → St → Prop
  | task {s : St} : Step s { s with tasks := s.tasks ++ [⟨0, .idle, 0⟩] }
  | get {s : St} (i : Nat) (t : Task) : s.tasks[i]? = some t → t.dn = 0 → t.pc = .idle → 1 ≤ t.own → Step s (s.get i t)
  | name {s : St} (i : Nat) (t : Task) : s.tasks[i]? = some t → t.dn = 0 → t.pc = .idle → s.inList = true → Step s (s.get i t)
  | put {s : St} (i : Nat) (t : Task) : s.tasks[i]? = some t → t.dn = 0 → t.pc = .idle → 1 ≤ t.own →
      Step s (s.touch.decC.setT i { t with own := t.own - 1 })
  | call0 {s : St} (i : Nat) (t : Task) (w : Waiter) (tr : Bool) : s.tasks[i]? = some t → t.dn = 0 → t.pc = .idle → 1 ≤ t.own → w.id ∉ s.used →
      Step s (s.call0 i t w tr)
  | call1 {s : St} (i : Nat) (t : Task) (w : Waiter) (tr : Bool) : s.tasks[i]? = some t → t.dn = 0 → t.pc = (if tr then .t1 w else .lk1 w) →
      Step s (s.call1 i t w tr)
  | lock2 {s : St} (i : Nat) (t : Task) (w : Waiter) (ok : Bool) : s.tasks[i]? = some t → t.dn = 0 → t.pc = .lk2 w → Step s (s.lock2 i t w ok)
  | nm {s : St} (i : Nat) (t : Task) (w : Waiter) : s.tasks[i]? = some t → t.dn = 0 → t.pc = .nm w → Step s (s.lockNm i t w)
  | lock3 {s : St} (i : Nat) (t : Task) : s.tasks[i]? = some t → t.dn = 0 → (t.pc = .lk3 ∨ t.pc = .tEnd) →
      Step s (s.touch.decL i { t with pc := .idle })
  | try2 {s : St} (i : Nat) (t : Task) (w : Waiter) : s.tasks[i]? = some t → t.dn = 0 → t.pc = .t2 w → Step s (s.try2 i t w)
  | try3 {s : St} (i : Nat) (t : Task) (w : Waiter) : s.tasks[i]? = some t → t.dn = 0 → t.pc = .t3 w → Step s (s.try3 i t w)
  | done {s : St} (w : Waiter) : w ∈ s.grant → Step s (s.done w)
  | failed {s : St} (w : Waiter) : w ∈ s.fail → Step s (s.failed w)
  | unlock {s : St} (i : Nat) (t : Task) (w : Waiter) : s.tasks[i]? = some t → t.dn = 0 → t.pc = .idle → w ∈ s.held → Step s (s.unlock i t w)
  | unl {s : St} (i : Nat) (t : Task) : s.tasks[i]? = some t → t.dn = 0 → t.pc = .unl →
      Step s (s.touch.decC.setT i { t with pc := .idle })
  | stop {s : St} (i : Nat) (t : Task) (w : Waiter) : s.tasks[i]? = some t → t.dn = 0 → t.pc = .idle → w ∈ s.held → w.write = true →
      s.stopping = false → Step s ({ s.touch with stopping := true }.setT i { t with pc := .stop0 })
  | stopErr {s : St} (i : Nat) (t : Task) : s.tasks[i]? = some t → t.dn = 0 → t.pc = .stop0 →
      Step s ({ s.touch with stopping := false }.setT i { t with pc := .idle })
  | remove1 {s : St} (i : Nat) (t : Task) : s.tasks[i]? = some t → t.dn = 0 → t.pc = .stop0 → Step s (s.remove1 i t)
  | remove2 {s : St} (i : Nat) (t : Task) : s.tasks[i]? = some t → t.dn = 0 → t.pc = .stop2 → Step s (s.remove2 i t)
  | off {s : St} (i : Nat) (t : Task) : s.tasks[i]? = some t → t.dn = 0 → t.pc = .stop3 →
      Step s ({ s.touch with inList := false }.setT i { t with pc := .stop4 })
  | stop4 {s : St} (i : Nat) (t : Task) : s.tasks[i]? = some t → t.dn = 0 → t.pc = .stop4 →
      Step s ({ s.touch.decC with base := s.base - 1 }.setT i { t with pc := .idle })
  | dn1 {s : St} (i : Nat) (t : Task) : s.tasks[i]? = some t → t.dn = 1 →
      Step s ({ s.touch with fail := s.fail ++ s.q, q := [], dead := true }.setT i { t with dn := 2 })
  | dn2 {s : St} (i : Nat) (t : Task) : s.tasks[i]? = some t → t.dn = 2 → Step s (s.touch.decC.setT i { t with dn := 3 })
  | dn3 {s : St} (i : Nat) (t : Task) : s.tasks[i]? = some t → t.dn = 3 → Step s (s.touch.setT i { t with dn := 0 })

/-- After `ocf_mngt_cache_start` without `locked`, `/repo/src/mngt/ocf_mngt_cache.c:1570-1648`: one reference,
on the list, unlocked. -/
def init : St :=
  { cref := 1, cFrz := false, cCb := false, lref := 0, lFrz := false, lCb := false, rd := 0, wr := 0, q := [],
    grant := [], fail := [], held := [], stopping := false, inList := true, base := 1, freed := false,
    uaf := false, dead := false, deadUse := false, deadUnl := false, bug := false, used := [], told := [],
    leaked := 0, tasks := [] }

/-- Any number of steps from `init`. Executions of the functions of
`/repo/src/mngt/ocf_mngt_common.c:141-401` in any order. -/
inductive Run : St → Prop
  | init : Run init
  | step {s t} : Run s → Step s t → Run t

end Verif.MngtLock
