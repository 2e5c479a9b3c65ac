/-! Visiting the caches of a context (C65), `ocf_mngt_cache_visit` and `ocf_mngt_cache_visit_reverse`.

One visit, with others who start and stop caches and hold references to them at any time. -/

namespace Verif.CacheVisit

/-- Where the visit is: before, copying the list (what is left of it), in the loop over the copy, in the visitor, putting
references, returned.
Source: /repo/src/mngt/ocf_mngt_common.c:404-481. -/
inductive Pc
  | start
  | copy (rest : List Nat)
  | walk (rest : List Nat)
  | visit (x : Nat) (rest : List Nat)
  | puts (rest : List Nat) (res : Int)
  | ret (res : Int)
  deriving DecidableEq, Repr

/-- The state. `caches`, the list of the context; `lock`, its lock is held by the visit; `rc`, references of each cache;
`frz`, its counter is frozen: it is being stopped; `mem`, the copy is allocated; `lst`, the copy. Ghosts: `oth`,
references others hold; `freed`, the cache is deallocated; `snap`, the list when the lock was taken; `seen`, caches the
visitor got; `rets`, what it returned; `bad`, a cache was used or freed after it was freed, a counter went below 0, or
memory was freed twice.
Source: /repo/src/mngt/ocf_mngt_common.c:391-517, /repo/src/mngt/ocf_mngt_cache.c:2346-2358. -/
structure St where
  caches : List Nat
  lock : Bool
  rc : Nat → Nat
  frz : Nat → Bool
  mem : Bool
  lst : List Nat
  pc : Pc
  oth : Nat → Nat
  freed : Nat → Bool
  snap : List Nat
  seen : List Nat
  rets : List Int
  bad : Bool

/-- A function with one value changed.
Source: /repo/src/mngt/ocf_mngt_common.c:391-394. -/
def upd {α : Type} (f : Nat → α) (x : Nat) (v : α) : Nat → α := fun y => if y = x then v else f y

/-- `_ocf_mngt_cache_try_get`: fails on a frozen counter.
Source: /repo/src/mngt/ocf_mngt_common.c:391-394, /repo/env/posix/ocf_env_refcnt.c:33-46. The two reads of the freeze counter are one
step here; their race is in `Verif.Refcnt`. -/
def St.tryGet (s : St) (x : Nat) : St × Bool :=
  let s := { s with bad := s.bad || s.freed x }
  if s.frz x then (s, false) else ({ s with rc := upd s.rc x (s.rc x + 1) }, true)

/-- `ocf_mngt_cache_put`: the last reference of a frozen counter deallocates the cache.
Source: /repo/src/mngt/ocf_mngt_common.c:141-146, /repo/src/mngt/ocf_mngt_cache.c:2346-2349. -/
def St.put (s : St) (x : Nat) : St :=
  { s with bad := s.bad || s.freed x || s.rc x == 0
           rc := upd s.rc x (s.rc x - 1)
           freed := if s.frz x && s.rc x == 1 then upd s.freed x true else s.freed }

/-- `env_vfree` of the copy.
Source: /repo/src/mngt/ocf_mngt_common.c:438-438, /repo/src/mngt/ocf_mngt_common.c:478-478. -/
def St.free (s : St) : St := { s with mem := false, bad := s.bad || !s.mem }

/-- The copying begins: the lock is taken, caches are counted, memory is allocated if there are any; `m`, whether
that succeeds.
Source: /repo/src/mngt/ocf_mngt_common.c:411-426, /repo/src/mngt/ocf_mngt_common.c:442-444. -/
def St.begin (s : St) (m : Bool) : St :=
  let s := { s with snap := s.caches, lst := [] }
  if s.caches.length = 0 then { s with pc := .ret 0 }
  else if m then { s with mem := true, lock := true, pc := .copy s.caches }
  else { s with pc := .ret (-12) }

/-- One cache of the list is copied, if a reference can be had.
Source: /repo/src/mngt/ocf_mngt_common.c:428-431. -/
def St.copy1 (s : St) (x : Nat) (r : List Nat) : St :=
  match s.tryGet x with
  | (s, true) => { s with lst := s.lst ++ [x], pc := .copy r }
  | (s, false) => { s with pc := .copy r }

/-- The order of a visit. `rev`: `ocf_mngt_cache_visit_reverse`.
Source: /repo/src/mngt/ocf_mngt_common.c:464-465, /repo/src/mngt/ocf_mngt_common.c:500-501. -/
def order (rev : Bool) (l : List Nat) : List Nat := if rev then l.reverse else l

/-- The copying ends: an empty copy is freed and the visit returns.
Source: /repo/src/mngt/ocf_mngt_common.c:433-444, /repo/src/mngt/ocf_mngt_common.c:460-461. -/
def St.copied (s : St) (rev : Bool) : St :=
  let s := { s with lock := false }
  if s.lst.length = 0 then { s.free with pc := .ret 0 }
  else { s with pc := .walk (order rev s.lst) }

/-- The visitor is called.
Source: /repo/src/mngt/ocf_mngt_common.c:464-467. -/
def St.call (s : St) (x : Nat) (r : List Nat) : St :=
  { s with bad := s.bad || s.freed x, seen := s.seen ++ [x], pc := .visit x r }

/-- The visitor returns `e`.
Source: /repo/src/mngt/ocf_mngt_common.c:467-471. -/
def St.back (s : St) (r : List Nat) (e : Int) : St :=
  let s := { s with rets := s.rets ++ [e] }
  if e ≠ 0 then { s with pc := .puts s.lst e } else { s with pc := .walk r }

/-- Steps of the visit.
Source: /repo/src/mngt/ocf_mngt_common.c:404-517. -/
inductive VStep (rev : Bool) : St → St → Prop
  | begin (s m) : s.pc = .start → VStep rev s (s.begin m)
  | copy (s x r) : s.pc = .copy (x :: r) → VStep rev s (s.copy1 x r)
  | copied (s) : s.pc = .copy [] → VStep rev s (s.copied rev)
  | call (s x r) : s.pc = .walk (x :: r) → VStep rev s (s.call x r)
  | back (s x r e) : s.pc = .visit x r → VStep rev s (s.back r e)
  | over (s) : s.pc = .walk [] → VStep rev s { s with pc := .puts s.lst 0 }
  | put (s x r e) : s.pc = .puts (x :: r) e → VStep rev s { s.put x with pc := .puts r e }
  | done (s e) : s.pc = .puts [] e → VStep rev s { s.free with pc := .ret e }

/-- Steps of others: start a cache; get and put references; freeze the counter of a cache to stop it, which its holder
does; take it off the list. A cache that is being stopped is held by who stops it until it is off the list.
Source: /repo/src/mngt/ocf_mngt_cache.c:2346-2358, /repo/src/mngt/ocf_mngt_common.c:141-146,
/repo/src/mngt/ocf_mngt_common.c:396-402. -/
inductive EStep : St → St → Prop
  | add (s x) : s.lock = false → x ∉ s.caches → s.freed x = false → s.rc x = 0 → s.frz x = false →
      EStep s { s with caches := s.caches ++ [x], rc := upd s.rc x 1, oth := upd s.oth x 1 }
  | get (s x) : s.frz x = false → s.freed x = false →
      EStep s { s with rc := upd s.rc x (s.rc x + 1), oth := upd s.oth x (s.oth x + 1) }
  | put (s x) : 0 < s.oth x → (s.frz x = true → x ∈ s.caches → 1 < s.oth x) →
      EStep s { s.put x with oth := upd s.oth x (s.oth x - 1) }
  | freeze (s x) : x ∈ s.caches → 0 < s.oth x → EStep s { s with frz := upd s.frz x true }
  | del (s x) : s.lock = false → s.frz x = true → EStep s { s with caches := s.caches.filter (· != x) }

/-- A visit and others.
Source: /repo/src/mngt/ocf_mngt_common.c:404-517. -/
inductive Step (rev : Bool) : St → St → Prop
  | v {s t} : VStep rev s t → Step rev s t
  | e {s t} : EStep s t → Step rev s t

/-- Before a visit. References are those others hold; a cache on the list is not freed, and held when it is being
stopped.
Source: /repo/src/mngt/ocf_mngt_common.c:447-456. -/
structure Init (s : St) : Prop where
  pc : s.pc = .start
  lock : s.lock = false
  mem : s.mem = false
  rc : ∀ x, s.rc x = s.oth x
  nodup : s.caches.Nodup
  live : ∀ x ∈ s.caches, s.frz x = true → 0 < s.oth x
  freed : ∀ x, s.freed x = true → s.rc x = 0 ∧ s.frz x = true ∧ x ∉ s.caches
  seen : s.seen = []
  rets : s.rets = []
  bad : s.bad = false
  lst : s.lst = []

end Verif.CacheVisit
