import Verif.Model.Mpool

/-!
What a request holds from its allocation to its last reference: memory, a reference to its queue, a unit
of `refcnt.metadata` or `refcnt.d2c`, and a unit of the volume's `refcnt` while its submitter has it;
`/repo/src/ocf_request.c` and `/repo/src/ocf_io.c`, with the switch of `refcnt.metadata` and
`refcnt.d2c` in attach, `/repo/src/mngt/ocf_mngt_cache.c`.
-/

namespace Verif.ReqAlloc

open Verif.Mpool

/-- Where `req->map` points to, `/repo/src/ocf_request.h:296-318`: null, `__map` at the end of the
request, or a block of its own. -/
inductive MapAt
  | null
  | inner
  | own
deriving DecidableEq, Repr

/-- `struct ocf_request`, `/repo/src/ocf_request.h:166-320`: the fields that decide what is given back.
`org` is not in the code: the order of the allocator the memory was taken from, `none` if it was taken
by `env_zalloc`. `vol` is `io.volume` while the submitter has not called `ocf_io_put`, and `none`
after it or for requests not made by `ocf_io_new`. -/
structure Rq where
  queue : Nat
  vol : Option Nat
  refs : Nat
  d2c : Bool
  isMngt : Bool
  cleaner : Bool
  alloc : Nat
  lines : Nat
  map : MapAt
  org : Option Nat
deriving DecidableEq, Repr

/-- A call of `ocf_req_new` under way, `/repo/src/ocf_request.c:187-230`: it has the queue, and goes for
`refcnt.d2c` (`seek`), or has got `refcnt.d2c` (`direct`) or `refcnt.metadata` (`cached`). -/
inductive Stage
  | seek
  | direct
  | cached
deriving DecidableEq, Repr

/-- The arguments of a call of `ocf_req_new` under way and its stage, `/repo/src/ocf_request.c:187-230`:
the queue, the volume of the caller (`ocf_io_new`, `/repo/src/ocf_io.c:76-101`) and the number of lines. -/
structure Pend where
  queue : Nat
  vol : Option Nat
  lines : Nat
  stage : Stage
deriving DecidableEq, Repr

/-- The counters. `md` is `refcnt.metadata` and `dc` is `refcnt.d2c`, `/repo/src/ocf_cache_priv.h:79-92`;
`mFrz` and `dFrz` tell whether they are frozen; `qref` is `ref_count` of the queues
(`/repo/src/ocf_queue_priv.h:17-57`); `vref` is `refcnt` of the volumes (`/repo/src/ocf_volume_priv.h:24-44`);
`pool` counts the objects taken from the allocator of each order, `heap` the blocks of `env_zalloc`;
`pend` and `live` are the calls and requests, `none` for those that are over. `bug` is set by
`ENV_BUG`. `leaked` is not in the code: the failures at `/repo/src/ocf_request.c:203-205`. -/
structure St where
  md : Nat
  dc : Nat
  mFrz : Bool
  dFrz : Bool
  qref : Nat → Nat
  vref : Nat → Nat
  pool : Nat → Nat
  heap : Nat
  pend : List (Option Pend)
  live : List (Option Rq)
  bug : Bool
  leaked : Nat

/-- A counter with one value changed. `/repo/env/posix/ocf_env.h:399-440` (the atomic operations). -/
def upd (f : Nat → Nat) (i v : Nat) : Nat → Nat := fun j => if j = i then v else f j

/-- `ocf_queue_get`, `/repo/src/ocf_queue.c:134-139`. -/
def St.qget (s : St) (q : Nat) : St := { s with qref := upd s.qref q (s.qref q + 1) }

/-- `ocf_queue_put`, `/repo/src/ocf_queue.c:141-162`, for the count; dropping it below zero counts as a
bug of the model (the code has no such check). The queue's own end is not modelled. -/
def St.qput (s : St) (q : Nat) : St :=
  if s.qref q = 0 then { s with bug := true } else { s with qref := upd s.qref q (s.qref q - 1) }

/-- `env_refcnt_inc(&cache->refcnt.metadata)` of a counter not frozen,
`/repo/env/posix/ocf_env_refcnt.c:33-46`. -/
def St.mdInc (s : St) : St := { s with md := s.md + 1 }

/-- A block of `env_zalloc`, `/repo/env/posix/ocf_env.h:117-125`. -/
def St.hget (s : St) : St := { s with heap := s.heap + 1 }

/-- A call of `ocf_req_new` that is over, `/repo/src/ocf_request.c:187-257`. -/
def St.over (s : St) (k : Nat) : St := { s with pend := s.pend.set k none }

/-- A failure of `ocf_req_new_d2c`, `/repo/src/ocf_request.c:203`: only counted. -/
def St.leak (s : St) : St := { s with leaked := s.leaked + 1 }

/-- `env_refcnt_dec(&cache->refcnt.metadata)`, `/repo/env/posix/ocf_env_refcnt.c:24-31`. -/
def St.mdDec (s : St) : St := if s.md = 0 then { s with bug := true } else { s with md := s.md - 1 }

/-- `env_refcnt_dec(&cache->refcnt.d2c)`, `/repo/env/posix/ocf_env_refcnt.c:24-31`. -/
def St.dcDec (s : St) : St := if s.dc = 0 then { s with bug := true } else { s with dc := s.dc - 1 }

/-- `env_refcnt_dec(&volume->refcnt)`, `/repo/env/posix/ocf_env_refcnt.c:24-31`; nothing without a
volume. -/
def St.vDec (s : St) : Option Nat → St
  | none => s
  | some v => if s.vref v = 0 then { s with bug := true } else { s with vref := upd s.vref v (s.vref v - 1) }

/-- `env_refcnt_inc(&volume->refcnt)`, `/repo/src/ocf_io.c:86`; nothing without a volume. -/
def St.vInc (s : St) : Option Nat → St
  | none => s
  | some v => { s with vref := upd s.vref v (s.vref v + 1) }

/-- `env_free` of one block, `/repo/env/posix/ocf_env.h:117-130`; freeing more than was
taken counts as a bug. -/
def St.hfree (s : St) : St := if s.heap = 0 then { s with bug := true } else { s with heap := s.heap - 1 }

/-- Taking an object of order `i` from the pool, `/repo/env/posix/utils_mpool.c:106-126`. -/
def St.ptake (s : St) (i : Nat) : St := { s with pool := upd s.pool i (s.pool i + 1) }

/-- `env_mpool_del`, `/repo/env/posix/utils_mpool.c:133-148`: the object goes to the allocator of the
count given; a bug if there is none, or if that allocator has no object out. -/
def St.pdel (p : Pool) (s : St) (count : Nat) : St :=
  match p.order count with
  | none => { s with bug := true }
  | some i => if s.pool i = 0 then { s with bug := true } else { s with pool := upd s.pool i (s.pool i - 1) }

/-- A new request, `ocf_req_init`, `/repo/src/ocf_request.c:85-98`. -/
def St.push (s : St) (r : Rq) : St := { s with live := s.live ++ [some r] }

/-- `env_mpool_new`, `/repo/env/posix/utils_mpool.c:106-131`: the order of the allocator the object is
taken from; `ok` tells whether it has memory. -/
def pnew (p : Pool) (count : Nat) (ok : Bool) : Option Nat := if ok then p.order count else none

/-- `ocf_req_put`, `/repo/src/ocf_request.c:384-408`. `map == __map` holds for `inner` only; freeing a
null map does nothing. -/
def St.put (p : Pool) (s : St) (k : Nat) (r : Rq) : St :=
  if r.refs = 0 then { s with bug := true }
  else if r.refs ≠ 1 then { s with live := s.live.set k (some { r with refs := r.refs - 1 }) }
  else
    let s := { s with live := s.live.set k none }
    let s := if r.d2c then s.dcDec else if !r.isMngt || r.cleaner then s.mdDec else s
    let s := if r.isMngt then s.hfree
      else (if r.map = .own then s.hfree else s).pdel p r.alloc
    s.qput r.queue

/-- `ocf_req_alloc_map`, `/repo/src/ocf_request.c:309-327`: the state, and whether it succeeded. A map
for no lines is a bug (`/repo/src/ocf_request.c:40-46`). -/
def St.allocMap (s : St) (k : Nat) (r : Rq) (ok : Bool) : St × Bool :=
  if r.map ≠ .null then (s, true)
  else if r.lines = 0 then ({ s with bug := true }, false)
  else if ok then
    ({ s with heap := s.heap + 1, live := s.live.set k (some { r with map := .own }) }, true)
  else (s, false)

/-- `ocf_req_new_mngt`, `/repo/src/ocf_request.c:100-116`. -/
def St.newMngt (s : St) (q : Nat) (ok : Bool) : St :=
  if ok then
    St.push (s.hget.qget q)
      { queue := q, vol := none, refs := 1, d2c := false, isMngt := true, cleaner := false, alloc := 0,
        lines := 0, map := .null, org := none }
  else s

/-- `ocf_req_new_cleaner`, `/repo/src/ocf_request.c:118-166`, for `n` lines; `mq` tells whether the
queue is the management queue, `ok1`, `ok2` and `ok3` whether the allocations have memory (of the
request, of the smaller request, and of the map). Simplification: one step; nothing in it depends on
what others do in between but `env_refcnt_inc`, which is C10. -/
def St.newCleaner (p : Pool) (s : St) (q : Nat) (mq : Bool) (n : Nat) (ok1 ok2 ok3 : Bool) : St :=
  if s.mFrz then s
  else
    let s := s.mdInc
    let r : Rq :=
      { queue := q, vol := none, refs := 1, d2c := false, isMngt := mq, cleaner := true, alloc := n,
        lines := n, map := .inner, org := none }
    if mq then
      if ok1 then St.push (s.hget.qget q) r else s.mdDec
    else
      match pnew p n ok1 with
      | some i => ((s.ptake i).qget q).push { r with org := some i }
      | none =>
        match pnew p 1 ok2 with
        | none => s.mdDec
        | some i =>
          let r := { r with alloc := 1, map := .null, org := some i }
          let s := ((s.ptake i).qget q).push r
          let k := s.live.length - 1
          let t := s.allocMap k r ok3
          if t.2 then t.1 else t.1.put p k r

/-- The allocation in `ocf_req_new` and `ocf_req_new_cache`, `/repo/src/ocf_request.c:220-249` and
`/repo/src/ocf_request.c:281-304`: the request, or giving back what the call has. `lines` is
`core_line_count` of the result, which `ocf_req_new_cache` leaves 0. -/
def St.take (p : Pool) (s : St) (q : Nat) (vol : Option Nat) (n lines : Nat) (ok1 ok2 : Bool) : St :=
  let r : Rq :=
    { queue := q, vol := vol, refs := 1, d2c := false, isMngt := false, cleaner := false, alloc := n,
      lines := lines, map := .inner, org := none }
  match pnew p n ok1 with
  | some i => (s.ptake i).push { r with org := some i }
  | none =>
    match pnew p 1 ok2 with
    | some i => (s.ptake i).push { r with alloc := 1, map := .null, org := some i }
    | none => (s.mdDec.qput q).vDec vol

/-- `ocf_req_new_cache`, `/repo/src/ocf_request.c:259-307`, called by `ocf_io_new`,
`/repo/src/ocf_io.c:86-94`, for the volume of a cache. One step, as `ocf_req_new_cleaner`. -/
def St.newCache (p : Pool) (s : St) (q : Nat) (vol : Option Nat) (n : Nat) (ok1 ok2 : Bool) : St :=
  let s := s.vInc vol
  if s.mFrz then s.vDec vol
  else (s.mdInc.qget q).take p q vol n 0 ok1 ok2

/-- The beginning of `ocf_req_new`, `/repo/src/ocf_request.c:195-199`, called by `ocf_io_new`,
`/repo/src/ocf_io.c:86-90`, or alone (`vol = none`). -/
def St.newStart (s : St) (q : Nat) (vol : Option Nat) (n : Nat) : St :=
  let s := (s.vInc vol).qget q
  if s.mFrz then { s with pend := s.pend ++ [some ⟨q, vol, n, .seek⟩] }
  else { s with md := s.md + 1, pend := s.pend ++ [some ⟨q, vol, n, .cached⟩] }

/-- `env_refcnt_inc(&cache->refcnt.d2c)` in `ocf_req_new`, `/repo/src/ocf_request.c:200-201`. -/
def St.newSeek (s : St) (k : Nat) (c : Pend) : St :=
  if s.dFrz then { s with bug := true }
  else { s with dc := s.dc + 1, pend := s.pend.set k (some { c with stage := .direct }) }

/-- `ocf_req_new_d2c` and the end of `ocf_req_new` after it, `/repo/src/ocf_request.c:168-185` and
`/repo/src/ocf_request.c:202-207`: a failure gives the queue back, and `ocf_io_new` gives the volume
back, but nothing gives `refcnt.d2c` back. -/
def St.newDirect (p : Pool) (s : St) (k : Nat) (c : Pend) (ok : Bool) : St :=
  let s := s.over k
  match pnew p 1 ok with
  | some i => (s.ptake i).push
      { queue := c.queue, vol := c.vol, refs := 1, d2c := true, isMngt := false, cleaner := false, alloc := 1,
        lines := 0, map := .null, org := some i }
  | none => (s.leak.qput c.queue).vDec c.vol

/-- The rest of `ocf_req_new`, `/repo/src/ocf_request.c:220-257`. -/
def St.newCached (p : Pool) (s : St) (k : Nat) (c : Pend) (ok1 ok2 : Bool) : St :=
  (s.over k).take p c.queue c.vol c.lines c.lines ok1 ok2

/-- `ocf_io_put`, `/repo/src/ocf_io.c:131-139`, with `ocf_core_io_allocator_del`,
`/repo/src/ocf_core.c:483-488`. -/
def St.ioPut (p : Pool) (s : St) (k : Nat) (r : Rq) : St :=
  (s.put p k { r with vol := none }).vDec r.vol

/-- The steps. `get`, `put` and `ioPut` follow the rules of callers: only a request that is live is used,
and the reference of the submitter is put by `ocf_io_put` only. A map is not asked for by requests
without lines. `attach` is `_ocf_mngt_attach_switch_to_pt`, `/repo/src/mngt/ocf_mngt_cache.c:1988-2001`,
`attached` is `_ocf_mngt_attach_disable_pt`, `/repo/src/mngt/ocf_mngt_cache.c:1973-1986`, which the
callback of `refcnt.d2c` starts, and `detach` freezes `refcnt.metadata`,
`/repo/src/mngt/ocf_mngt_cache.c:3790-3798`. -/
inductive Step (p : Pool) : St → St → Prop
  | mngt {s} (q ok) : Step p s (s.newMngt q ok)
  | cleaner {s} (q mq n ok1 ok2 ok3) : 0 < n → Step p s (s.newCleaner p q mq n ok1 ok2 ok3)
  | cache {s} (q vol n ok1 ok2) : 0 < n → Step p s (s.newCache p q vol n ok1 ok2)
  | start {s} (q vol n) : 0 < n → Step p s (s.newStart q vol n)
  | seek {s} (k c) : s.pend[k]? = some (some c) → c.stage = .seek → Step p s (s.newSeek k c)
  | direct {s} (k c ok) : s.pend[k]? = some (some c) → c.stage = .direct → Step p s (s.newDirect p k c ok)
  | cached {s} (k c ok1 ok2) : s.pend[k]? = some (some c) → c.stage = .cached →
      Step p s (s.newCached p k c ok1 ok2)
  | map {s} (k r ok) : s.live[k]? = some (some r) → 0 < r.lines → Step p s (s.allocMap k r ok).1
  | get {s} (k r) : s.live[k]? = some (some r) →
      Step p s { s with live := s.live.set k (some { r with refs := r.refs + 1 }) }
  | put {s} (k r) : s.live[k]? = some (some r) → (r.vol = none ∨ 2 ≤ r.refs) → Step p s (s.put p k r)
  | ioPut {s} (k r v) : s.live[k]? = some (some r) → r.vol = some v → Step p s (s.ioPut p k r)
  | attach {s} : s.mFrz = true → s.dFrz = false → Step p s { s with mFrz := false, dFrz := true }
  | attached {s} : s.dFrz = true → s.dc = 0 → Step p s { s with dFrz := false }
  | detach {s} : s.mFrz = false → s.dFrz = false → Step p s { s with mFrz := true }

/-- The beginning: no requests; queues and volumes with the references of others;
`refcnt.metadata` is frozen until an attach, `/repo/src/mngt/ocf_mngt_cache.c:930`. -/
def init (qbase vbase : Nat → Nat) : St :=
  { md := 0, dc := 0, mFrz := true, dFrz := false, qref := qbase, vref := vbase, pool := fun _ => 0, heap := 0,
    pend := [], live := [], bug := false, leaked := 0 }

/-- Any number of steps from the beginning. Executions of the functions above, in any order, as in
`/repo/src/ocf_request.c:100-408`. -/
inductive Run (p : Pool) (a : St) : St → Prop
  | refl : Run p a a
  | step {s t} : Run p a s → Step p s t → Run p a t

end Verif.ReqAlloc
