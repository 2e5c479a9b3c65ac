/-! The life of queues and of the cache they keep (C61).

Queues are at addresses; the allocator gives any address where no live queue is. Calls are atomic: the list of
queues is under its lock, the counters are atomic. What runs on a queue is in `Verif.Queue` (C25). -/

namespace Verif.QueueLife

/-- A live queue: address, references; ghosts: serial number, whether it was created for management.
Source: /repo/src/ocf_queue_priv.h:15-45, /repo/src/ocf_queue.c:17-44. -/
structure Q where
  addr : Nat
  refs : Nat
  ser : Nat
  mngt : Bool
  deriving DecidableEq, Repr

/-- The cache and its queues. `live`: the cache is allocated; `frozen`: its counter is frozen; `lock`: the lock of
the list is initialised; `crefs`: the counter; `list`: the addresses linked; `mngt`: `cache->mngt_queue`; `spins`:
spinlocks of queues initialised; `cuts`: sequential cutoff structures. Ghosts: `cuser` references users hold,
`next`, `stops` queues whose `stop` was called, `lost` queues freed with their spinlock initialised, `bad` a
destroyed lock was used or a freed queue visited.
Source: /repo/src/ocf_cache_priv.h:74-80, /repo/src/ocf_cache_priv.h:115-116,
/repo/src/ocf_queue.c:46-127, /repo/src/ocf_queue.c:141-161. -/
structure St where
  live : Bool := true
  frozen : Bool := false
  lock : Bool := true
  crefs : Nat := 1
  cuser : Nat := 0
  queues : List Q := []
  list : List Nat := []
  mngt : Option Nat := none
  spins : Nat := 0
  cuts : Nat := 0
  next : Nat := 0
  stops : List Nat := []
  lost : Nat := 0
  bad : Bool := false
  deriving DecidableEq, Repr

/-- `ocf_mngt_cache_put`: the callback at zero, registered when the cache is removed, frees it.
Source: /repo/src/mngt/ocf_mngt_common.c:141-146, /repo/src/mngt/ocf_mngt_cache.c:2321-2339,
/repo/src/mngt/ocf_mngt_cache.c:2346-2349. -/
def cput (s : St) : St :=
  let s := { s with crefs := s.crefs - 1 }
  if s.frozen && s.crefs == 0 then { s with live := false } else s

/-- `_ocf_queue_create` and what follows it in `ocf_queue_create`: allocation, spinlock, sequential cutoff may fail.
When the last fails the spinlock is not destroyed.
Source: /repo/src/ocf_queue.c:17-44, /repo/src/ocf_queue.c:46-79, /repo/src/mngt/ocf_mngt_common.c:391-402. -/
def create (s : St) (a : Nat) (al sp cu : Bool) : St × Bool :=
  if s.frozen then (s, false)
  else
    let s := { s with crefs := s.crefs + 1 }
    if !al then (cput s, false)
    else if !sp then (cput s, false)
    else
      let s := { s with spins := s.spins + 1 }
      if !cu then ({ cput s with lost := s.lost + 1 }, false)
      else ({ s with queues := ⟨a, 1, s.next, false⟩ :: s.queues, list := a :: s.list, cuts := s.cuts + 1
                     next := s.next + 1 }, true)

/-- `ocf_queue_create_mngt`.
Source: /repo/src/ocf_queue.c:101-127. -/
def createMngt (s : St) (a : Nat) (al sp : Bool) : St × Bool :=
  if s.mngt.isSome then (s, false)
  else if s.frozen then (s, false)
  else
    let s := { s with crefs := s.crefs + 1 }
    if !al then (cput s, false)
    else if !sp then (cput s, false)
    else ({ s with spins := s.spins + 1, queues := ⟨a, 1, s.next, true⟩ :: s.queues, mngt := some a
                   next := s.next + 1 }, true)

/-- The queue at an address.
Source: /repo/src/ocf_queue.c:141-144. -/
def at? (s : St) (a : Nat) : Option Q := s.queues.find? (fun q => q.addr == a)

/-- `ocf_queue_get`.
Source: /repo/src/ocf_queue.c:134-139. -/
def get (s : St) (a : Nat) : St :=
  { s with queues := s.queues.map fun q => if q.addr = a then { q with refs := q.refs + 1 } else q }

/-- `ocf_queue_put` for the last reference. Whether it is the management queue is told by its address.
Source: /repo/src/ocf_queue.c:129-132, /repo/src/ocf_queue.c:151-161. -/
def destroy (s : St) (q : Q) : St :=
  let s := { s with stops := q.ser :: s.stops }
  let s := if s.mngt = some q.addr then s
    else { s with bad := s.bad || !s.lock, list := s.list.filter (fun b => b != q.addr), cuts := s.cuts - 1 }
  cput { s with spins := s.spins - 1, queues := s.queues.filter (fun x => x.addr != q.addr) }

/-- `ocf_queue_put`.
Source: /repo/src/ocf_queue.c:141-161. -/
def put (s : St) (a : Nat) : St :=
  match at? s a with
  | none => { s with bad := true }
  | some q =>
    if q.refs - 1 ≠ 0 then
      { s with queues := s.queues.map fun q => if q.addr = a then { q with refs := q.refs - 1 } else q }
    else destroy s q

/-- Stopping the cache, as far as queues go: the references of creators of linked queues are put, the counter is
frozen, the lock destroyed, the cache's own reference put.
Source: /repo/src/mngt/ocf_mngt_cache.c:2261-2267, /repo/src/mngt/ocf_mngt_cache.c:2341-2359,
/repo/src/mngt/ocf_mngt_cache.c:2375-2413, /repo/src/mngt/ocf_mngt_cache.c:3428-3446. -/
def stop (s : St) : St :=
  let s := s.list.foldl put s
  cput { s with frozen := true, lock := false }

/-- `ocf_queue_visit`: the queues visited; the visitor says where to stop.
Source: /repo/src/ocf_queue.c:81-99. -/
def visit (f : Nat → Int) : List Nat → List Nat × Int
  | [] => ([], 0)
  | a :: l => if f a ≠ 0 then ([a], f a) else ((a :: (visit f l).1), (visit f l).2)

/-- Calls.
Source: /repo/src/ocf_queue.c:46-161, /repo/src/mngt/ocf_mngt_common.c:141-146,
/repo/src/mngt/ocf_mngt_common.c:396-402. -/
inductive Op
  | create (a : Nat) (al sp cu : Bool)
  | createMngt (a : Nat) (al sp : Bool)
  | get (a : Nat)
  | put (a : Nat)
  | cget
  | cput
  | stop
  deriving DecidableEq, Repr

/-- When a call may be made: the allocator gives a free address, the caller holds the reference it puts, the cache
is there.
Source: /repo/src/ocf_queue.c:46-161. -/
def Can (s : St) : Op → Prop
  | .create a _ _ _ => s.live = true ∧ at? s a = none
  | .createMngt a _ _ => s.live = true ∧ at? s a = none
  | .get a => (at? s a).isSome = true
  | .put a => (at? s a).isSome = true
  | .cget => s.live = true
  | .cput => 0 < s.cuser
  | .stop => s.frozen = false

/-- One call.
Source: /repo/src/ocf_queue.c:46-161, /repo/src/mngt/ocf_mngt_common.c:141-146,
/repo/src/mngt/ocf_mngt_common.c:396-402. -/
def step (s : St) : Op → St
  | .create a al sp cu => (create s a al sp cu).1
  | .createMngt a al sp => (createMngt s a al sp).1
  | .get a => get s a
  | .put a => put s a
  | .cget => if s.frozen then s else { s with crefs := s.crefs + 1, cuser := s.cuser + 1 }
  | .cput => cput { s with cuser := s.cuser - 1 }
  | .stop => stop s

/-- Single steps.
Source: /repo/src/ocf_queue.c:46-161. -/
def Step (s t : St) : Prop := ∃ o, Can s o ∧ t = step s o

/-- A started cache.
Source: /repo/src/mngt/ocf_mngt_cache.c:860-935. -/
def Init (s : St) : Prop := s = {}

end Verif.QueueLife
