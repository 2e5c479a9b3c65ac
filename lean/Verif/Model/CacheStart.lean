/-! Starting a cache (C63): what is initialised in which order, and how it is undone when a step fails.

Each step of the environment may fail. Metadata in memory is initialised as a whole or not at all (`ocf_metadata_init`
undoes what it did). The values of the superblock set on success are not modelled. -/

namespace Verif.CacheStart

/-- A new cache: which of its parts are initialised; `clean` the counters of the classes, `refs` the value of the
counter of references, `locked` the management lock. Ghost: `bad`, how often something not
initialised was used, deinitialised, destroyed or freed.
Source: /repo/src/mngt/ocf_mngt_cache.c:850-965, /repo/src/mngt/ocf_mngt_common.c:301-335. -/
structure R where
  mem : Bool := false
  lockCnt : Bool := false
  lockObj : Bool := false
  cCache : Bool := false
  cDirty : Bool := false
  cMeta : Bool := false
  cD2c : Bool := false
  clean : Nat → Bool := fun _ => false
  mutex : Bool := false
  spin : Bool := false
  metad : Bool := false
  refs : Nat := 0
  locked : Bool := false
  bad : Nat := 0

/-- One misuse unless it is there.
Source: /repo/src/mngt/ocf_mngt_cache.c:942-964. -/
def no (b : Bool) : Nat := if b then 0 else 1

/-- What the environment does at each step; `clean` is the number of class counters that can be initialised.
Source: /repo/src/mngt/ocf_mngt_cache.c:853-923, /repo/src/mngt/ocf_mngt_cache.c:1588-1622. -/
structure I where
  mem : Bool
  lockCnt : Bool
  lockObj : Bool
  cCache : Bool
  cDirty : Bool
  cMeta : Bool
  cD2c : Bool
  clean : Nat
  try' : Bool
  mutex : Bool
  spin : Bool
  inc : Bool
  ctxLock : Bool
  metad : Bool
  name : Bool
  deriving Repr

/-- `env_refcnt_deinit(&cache->refcnt.cache)`.
Source: /repo/src/mngt/ocf_mngt_cache.c:957-958, /repo/src/mngt/ocf_mngt_cache.c:1541-1541. -/
def dCache (r : R) : R := { r with cCache := false, refs := 0, bad := r.bad + no r.cCache }

/-- `env_refcnt_deinit(&cache->refcnt.dirty)`.
Source: /repo/src/mngt/ocf_mngt_cache.c:955-956, /repo/src/mngt/ocf_mngt_cache.c:1540-1540. -/
def dDirty (r : R) : R := { r with cDirty := false, bad := r.bad + no r.cDirty }

/-- `env_refcnt_deinit(&cache->refcnt.metadata)`.
Source: /repo/src/mngt/ocf_mngt_cache.c:953-954, /repo/src/mngt/ocf_mngt_cache.c:1539-1539. -/
def dMeta (r : R) : R := { r with cMeta := false, bad := r.bad + no r.cMeta }

/-- `env_refcnt_deinit(&cache->refcnt.d2c)`.
Source: /repo/src/mngt/ocf_mngt_cache.c:952-952, /repo/src/mngt/ocf_mngt_cache.c:1538-1538. -/
def dD2c (r : R) : R := { r with cD2c := false, bad := r.bad + no r.cD2c }

/-- Deinitialise the first `n` class counters.
Source: /repo/src/mngt/ocf_mngt_cache.c:948-951, /repo/src/mngt/ocf_mngt_cache.c:1535-1536. -/
def dClean (r : R) (n : Nat) : R :=
  { r with clean := fun k => if k < n then false else r.clean k
           bad := r.bad + ((List.range n).filter (fun k => !r.clean k)).length }

/-- `env_mutex_destroy`.
Source: /repo/src/mngt/ocf_mngt_cache.c:945-945, /repo/src/mngt/ocf_mngt_cache.c:1530-1530. -/
def dMutex (r : R) : R := { r with mutex := false, bad := r.bad + no r.mutex }

/-- `env_spinlock_destroy`.
Source: /repo/src/mngt/ocf_mngt_cache.c:943-943, /repo/src/mngt/ocf_mngt_cache.c:1528-1528. -/
def dSpin (r : R) : R := { r with spin := false, bad := r.bad + no r.spin }

/-- `env_vfree(cache)`.
Source: /repo/src/mngt/ocf_mngt_cache.c:962-962, /repo/src/mngt/ocf_mngt_cache.c:1548-1548. -/
def dMem (r : R) : R := { r with mem := false, bad := r.bad + no r.mem }

/-- `ocf_mngt_cache_lock_init`: counter and lock.
Source: /repo/src/mngt/ocf_mngt_common.c:301-315. -/
def lockInit (r : R) (i : I) : R × Bool :=
  if !i.lockCnt then (r, false)
  else if !i.lockObj then ({ r with lockCnt := false }, false)
  else ({ r with lockCnt := true, lockObj := true }, true)

/-- `ocf_mngt_cache_lock_deinit`: takes a reference to the cache and gives it back in the callback, which runs at
once as nobody waits for the lock.
Source: /repo/src/mngt/ocf_mngt_common.c:317-335. -/
def lockDeinit (r : R) : R :=
  { r with lockObj := false, lockCnt := false
           bad := r.bad + no r.cCache + no r.lockObj + no r.lockCnt + no (!r.locked) }

/-- `ocf_mngt_cache_trylock`: holds the cache while locked.
Source: /repo/src/mngt/ocf_mngt_common.c:264-292, /repo/src/mngt/ocf_mngt_common.c:346-352. -/
def trylock (r : R) (i : I) : R × Bool :=
  if i.try' then ({ r with locked := true, refs := r.refs + 1, bad := r.bad + no r.cCache + no r.lockObj }, true)
  else ({ r with bad := r.bad + no r.cCache + no r.lockObj }, false)

/-- `ocf_mngt_cache_unlock`.
Source: /repo/src/mngt/ocf_mngt_common.c:294-299, /repo/src/mngt/ocf_mngt_common.c:354-359. -/
def unlock (r : R) : R :=
  { r with locked := false, refs := r.refs - 1, bad := r.bad + no r.locked + no r.cCache + no r.lockObj }

/-- From label `lock_init_err`.
Source: /repo/src/mngt/ocf_mngt_cache.c:959-964. -/
def eLockInit (r : R) : R := dMem (lockDeinit r)

/-- From label `dirty_refcnt_err`.
Source: /repo/src/mngt/ocf_mngt_cache.c:957-964. -/
def eDirty (r : R) : R := eLockInit (dCache r)

/-- From label `metadata_refcnt_err`.
Source: /repo/src/mngt/ocf_mngt_cache.c:955-964. -/
def eMeta (r : R) : R := eDirty (dDirty r)

/-- From label `d2c_refcnt_err`.
Source: /repo/src/mngt/ocf_mngt_cache.c:953-964. -/
def eD2c (r : R) : R := eMeta (dMeta r)

/-- From label `cleaning_refcnt_err`, the loop counter at `i`: counters `i` down to 0.
Source: /repo/src/mngt/ocf_mngt_cache.c:948-964. -/
def eClean (r : R) (i : Nat) : R := eD2c (dD2c (dClean r (i + 1)))

/-- From label `lock_err`.
Source: /repo/src/mngt/ocf_mngt_cache.c:946-964. -/
def eLock (r : R) (i : Nat) : R := eClean (unlock r) i

/-- From label `mutex_err`.
Source: /repo/src/mngt/ocf_mngt_cache.c:944-964. -/
def eMutex (r : R) (i : Nat) : R := eLock (dMutex r) i

/-- From label `cache_refcnt_inc_err`.
Source: /repo/src/mngt/ocf_mngt_cache.c:942-964. -/
def eInc (r : R) (i : Nat) : R := eMutex (dSpin r) i

/-- After the class counters: lock, mutex, spinlock, reference; `m` classes.
Source: /repo/src/mngt/ocf_mngt_cache.c:893-940. -/
def newRest (r : R) (m : Nat) (i : I) : R × Bool :=
  if (trylock r i).2 = false then (eClean (trylock r i).1 m, false)
  else
    let r := (trylock r i).1
    if !i.mutex then (eLock r m, false)
    else
      let r := { r with mutex := true }
      if !i.spin then (eMutex r m, false)
      else
        let r := { r with spin := true }
        if !i.inc then (eInc r m, false)
        else ({ r with refs := r.refs + 1, bad := r.bad + no r.cCache }, true)

/-- The counters.
Source: /repo/src/mngt/ocf_mngt_cache.c:869-891. -/
def newCounters (r : R) (m : Nat) (i : I) : R × Bool :=
  if !i.cCache then (eLockInit r, false)
  else
    let r := { r with cCache := true }
    if !i.cDirty then (eDirty r, false)
    else
      let r := { r with cDirty := true }
      if !i.cMeta then (eMeta r, false)
      else
        let r := { r with cMeta := true }
        if !i.cD2c then (eD2c r, false)
        else
          let r := { r with cD2c := true }
          let r := { r with clean := fun k => decide (k < min i.clean m) }
          if i.clean < m then (eClean r i.clean, false) else newRest r m i

/-- `_ocf_mngt_init_new_cache`.
Source: /repo/src/mngt/ocf_mngt_cache.c:850-965. -/
def newCache (m : Nat) (i : I) : R × Bool :=
  let r : R := {}
  if !i.mem then (r, false)
  else
    let r := { r with mem := true }
    if (lockInit r i).2 = false then (dMem (lockInit r i).1, false)
    else newCounters (lockInit r i).1 m i

/-- `_ocf_mngt_init_handle_error` for an allocated cache, which is locked.
Source: /repo/src/mngt/ocf_mngt_cache.c:1519-1549. -/
def handleError (r : R) (m : Nat) : R :=
  let r := unlock (dMutex (dSpin r))
  let r := dCache (dDirty (dMeta (dD2c (dClean r m))))
  let r := lockDeinit r
  dMem (if r.metad then { r with metad := false } else r)

/-- The context: its references, the names of its caches, whether its lock is held.
Source: /repo/src/ocf_ctx_priv.h:32-51, /repo/src/mngt/ocf_mngt_cache.c:1586-1592. -/
structure Ctx where
  refs : Nat
  names : List Nat
  held : Bool := false
  deriving DecidableEq, Repr

/-- Results: success, a cache of this name exists, or another error.
Source: /repo/src/mngt/ocf_mngt_cache.c:1025-1033, /repo/src/mngt/ocf_mngt_cache.c:1570-1650. -/
inductive Res
  | ok
  | exist
  | err
  deriving DecidableEq, Repr

/-- `_ocf_mngt_cache_start` once the cache is prepared, under the lock of the context.
Source: /repo/src/mngt/ocf_mngt_cache.c:1600-1650. -/
def startRest (c : Ctx) (r : R) (m n : Nat) (keep : Bool) (i : I) : Ctx × R × Res :=
  if !i.metad then ({ c with held := false, refs := c.refs - 1 }, handleError r m, .err)
  else
    let r := { r with metad := true }
    if !i.name then ({ c with held := false, refs := c.refs - 1 }, handleError r m, .err)
    else
      let c := { c with names := c.names ++ [n], held := false }
      (c, (if keep then r else unlock r), .ok)

/-- `_ocf_mngt_cache_start`: `m` classes, name `n`, `keep` whether the caller asks for a locked cache.
Source: /repo/src/mngt/ocf_mngt_cache.c:1570-1650, /repo/src/mngt/ocf_mngt_cache.c:1019-1055. -/
def start (c : Ctx) (m n : Nat) (keep : Bool) (i : I) : Ctx × R × Res :=
  let c := { c with refs := c.refs + 1 }
  if !i.ctxLock then ({ c with refs := c.refs - 1 }, {}, .err)
  else
    let c := { c with held := true }
    if n ∈ c.names then ({ c with held := false, refs := c.refs - 1 }, {}, .exist)
    else if (newCache m i).2 = false then ({ c with held := false, refs := c.refs - 1 }, (newCache m i).1, .err)
    else startRest c (newCache m i).1 m n keep i

/-- Steps of the context: a cache is started, a cache is removed and its reference put.
Source: /repo/src/mngt/ocf_mngt_cache.c:1570-1650, /repo/src/mngt/ocf_mngt_cache.c:2321-2359. -/
inductive Step : Ctx → Ctx → Prop
  | start (c : Ctx) (m n : Nat) (keep : Bool) (i : I) : Step c (start c m n keep i).1
  | remove (c : Ctx) (n : Nat) (h : n ∈ c.names) :
    Step c { c with names := c.names.erase n, refs := c.refs - 1 }

/-- A new context.
Source: /repo/src/ocf_ctx.c:180-246. -/
def Init (c : Ctx) : Prop := c = { refs := 1, names := [] }

end Verif.CacheStart
