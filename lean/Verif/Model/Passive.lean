/-!
Model of the writes that reach a standby cache: they go to the cache device, and the copies of the
superblock and of the collision table kept in memory follow them page by page.
Sources: `/repo/src/metadata/metadata_passive_update.c`, `/repo/src/concurrency/ocf_pio_concurrency.c`,
`/repo/src/ocf_cache.c`.

Any number of requests in any order of steps. The contents of a page are a number; which entries of a
container a page holds is C50. Left out: the queue between lock and resume, flushes and discards (which
do not touch memory), and the contents of the device.
-/

namespace Verif.Passive

/-- `PAGE_SIZE`, `/repo/env/posix/ocf_env.h:45`. -/
def pageSize : Nat := 4096

/-- `BYTES_TO_PAGES`, `/repo/src/ocf_def_priv.h:16`, in 64 bits. -/
def toPages (x : Nat) : Nat := (x + (pageSize - 1)) % 2 ^ 64 / pageSize

/-- First page on the device and number of pages of a container, `/repo/src/metadata/metadata_raw.h:79-80`. -/
structure Seg where
  offset : Nat
  pages : Nat
deriving Repr, DecidableEq

/-- The two containers followed, `/repo/src/metadata/metadata_passive_update.c:36-39`, in this order, and the
number of metadata pages, `ocf_metadata_get_pages_count`, `/repo/src/metadata/metadata.c:952-958`. -/
structure Cfg where
  sb : Seg
  coll : Seg
  total : Nat
deriving Repr, DecidableEq

/-- container `k`, `/repo/src/metadata/metadata_passive_update.c:43-44`. -/
def Cfg.seg (c : Cfg) (k : Nat) : Seg := if k = 0 then c.sb else c.coll

/-- `first_entry` of container `k`, `/repo/src/concurrency/ocf_pio_concurrency.c:224-232`. -/
def Cfg.first (c : Cfg) (k : Nat) : Nat := if k = 0 then 0 else c.sb.pages

/-- `pages_to_alloc`, `/repo/src/concurrency/ocf_pio_concurrency.c:200`, `:231`: number of locks. -/
def Cfg.locks (c : Cfg) : Nat := c.sb.pages + c.coll.pages

/-- `page_belongs_to_section`, `/repo/src/concurrency/ocf_pio_concurrency.c:30-35`. -/
def Seg.has (g : Seg) (page : Nat) : Bool := decide (g.offset ≤ page ∧ page < g.offset + g.pages)

/-- `ocf_pio_lock_get_entry`, `/repo/src/concurrency/ocf_pio_concurrency.c:47-61`, with `page_to_entry`
(`:37-45`); `none`: out of range. The page number has 32 bits. -/
def Cfg.entry (c : Cfg) (page : Nat) : Option Nat :=
  let p := page % 2 ^ 32
  if c.sb.has p then some (c.first 0 + (p - c.sb.offset))
  else if c.coll.has p then some (c.first 1 + (p - c.coll.offset))
  else none

/-- Where a request is, `/repo/src/metadata/metadata_passive_update.c:28-140`. -/
inductive Pc where
  /-- not submitted, before `/repo/src/ocf_cache.c:319`. -/
  | idle
  /-- submitted, forwarded to the device, `/repo/src/ocf_cache.c:334-340`. -/
  | sent
  /-- in `ocf_pio_async_lock` or waiting, `/repo/src/metadata/metadata_passive_update.c:128-129`. -/
  | lock
  /-- has its locks, `k` pages copied, `/repo/src/metadata/metadata_passive_update.c:42-63`. -/
  | copy (k : Nat)
  /-- `k` pages passed by the unlock loop, `/repo/src/concurrency/ocf_pio_concurrency.c:174-184`. -/
  | unlock (k : Nat)
  /-- update over, with this error or 0, `/repo/src/metadata/metadata_passive_update.c:66`. -/
  | over (e : Int)
  /-- refused before anything was begun, `/repo/src/ocf_cache.c:325-332`. -/
  | refused
deriving Repr, DecidableEq

/-- A write or read of the exported volume of the cache, `/repo/src/ocf_request.h:166-318`: direction,
address, length, whether the allocation for its update fails, buffer by pages; state; whether the device
and the submitting function are through with it; `req_remaining`, `error`, calls of the end function. -/
structure Req where
  read : Bool
  addr : Nat
  bytes : Nat
  noMem : Bool
  data : Nat → Nat
  pc : Pc
  dev : Bool
  ret : Bool
  remaining : Nat
  error : Int
  ends : Nat

/-- `io_start_page`, `/repo/src/metadata/metadata_passive_update.c:33`, `:79`. -/
def Req.start (r : Req) : Nat := toPages r.addr

/-- `core_line_count`, `/repo/src/metadata/metadata_passive_update.c:80`, `:125`. -/
def Req.count (r : Req) : Nat := toPages r.bytes

/-- `io_end_page`, `/repo/src/metadata/metadata_passive_update.c:35`, in 64 bits. -/
def Req.last (r : Req) : Nat := (r.start + r.count + (2 ^ 64 - 1)) % 2 ^ 64

/-- Copies made for container `k`: page of the container, page of the buffer,
`/repo/src/metadata/metadata_passive_update.c:45-62` with `_raw_ram_update`,
`/repo/src/metadata/metadata_raw.c:234-245`. -/
def Req.planOf (c : Cfg) (r : Req) (k : Nat) : List (Nat × Nat × Nat) :=
  let g := c.seg k
  let overlapStart := max r.start g.offset
  let overlapEnd := min r.last (g.offset + g.pages - 1)
  if overlapStart > overlapEnd then []
  else (List.range (overlapEnd - overlapStart + 1)).map fun t =>
    (k, overlapStart - g.offset + t, overlapStart - r.start + t)

/-- All copies of a request, in order, `/repo/src/metadata/metadata_passive_update.c:42-63`. -/
def Req.plan (c : Cfg) (r : Req) : List (Nat × Nat × Nat) := r.planOf c 0 ++ r.planOf c 1

/-- Locks of a request, `/repo/src/concurrency/ocf_pio_concurrency.c:71-74`, `:112-115`. -/
def Req.entries (c : Cfg) (r : Req) : List Nat :=
  (List.range r.count).filterMap fun i => c.entry (r.start + i)

/-- `-OCF_ERR_INVAL`, `/repo/inc/ocf_err.h:22`. -/
def errInval : Int := -1000000

/-- `-OCF_ERR_NO_MEM`, `/repo/inc/ocf_err.h:34`. -/
def errNoMem : Int := -1000004

/-- `-OCF_ERR_IO`, `/repo/inc/ocf_err.h:97`. -/
def errIo : Int := -1000025

/-- `-OCF_ERR_CACHE_NOT_STANDBY`, `/repo/inc/ocf_err.h:160`. -/
def errNotStandby : Int := -1000046

/-- What `ocf_metadata_passive_update` does first, `/repo/src/metadata/metadata_passive_update.c:84-113`:
`some e`: complete with `e`; `none`: go on. -/
def Req.check (c : Cfg) (r : Req) : Option Int :=
  if r.read then some 0
  else if r.start ≥ c.total then some 0
  else if r.addr % pageSize ≠ 0 ∨ r.bytes % pageSize ≠ 0 then some errInval
  else if r.bytes > 32 * 2 ^ 20 then some errInval
  else if r.noMem then some errNoMem
  else none

/-- Memory copies (container, page), locks (`cache->standby.concurrency`), requests, the counter
`refcnt.metadata`, its freeze and the state of the cache, `/repo/src/ocf_cache.c:319-350`. `by_` is ghost: who
copied this page last. -/
structure St where
  mem : Nat → Nat → Nat
  owner : Nat → Option Nat
  req : Nat → Req
  refs : Int
  frozen : Bool
  standby : Bool
  by_ : Nat → Nat → Option Nat

/-- Parameters of a request not submitted yet, `/repo/src/ocf_io.c:76-101`. -/
structure Par where
  read : Bool
  addr : Nat
  bytes : Nat
  noMem : Bool
  data : Nat → Nat

/-- A new request, `/repo/src/ocf_io.c:76-101`. -/
def Par.req (p : Par) : Req :=
  ⟨p.read, p.addr, p.bytes, p.noMem, p.data, .idle, false, false, 0, 0, 0⟩

/-- A cache that became standby; `/repo/src/mngt/ocf_mngt_cache.c:2533`. -/
def init (m : Nat → Nat → Nat) (ps : Nat → Par) : St :=
  ⟨m, fun _ => none, fun i => (ps i).req, 0, false, true, fun _ _ => none⟩

/-- assignment, `/repo/src/metadata/metadata_raw.c:220-223`. -/
def upd {α : Type} (f : Nat → α) (i : Nat) (a : α) : Nat → α := fun x => if x = i then a else f x

/-- assignment to a page of a container, `/repo/src/metadata/metadata_raw.c:220-223`. -/
def upd2 {α : Type} (f : Nat → Nat → α) (k p : Nat) (a : α) : Nat → Nat → α :=
  fun x y => if x = k ∧ y = p then a else f x y

/-- `ocf_cache_io_complete`, `/repo/src/ocf_cache.c:305-317`: request afterwards and whether it ended (then
the reference is given back). -/
def Req.complete (r : Req) (e : Int) : Req × Bool :=
  let err := if e ≠ 0 ∧ r.error = 0 then e else r.error
  if r.remaining - 1 = 0 then ({ r with error := err, remaining := 0, ends := r.ends + 1 }, true)
  else ({ r with error := err, remaining := r.remaining - 1 }, false)

/-- `req->complete` in a state, `/repo/src/ocf_cache.c:305-317`. -/
def St.complete (s : St) (i : Nat) (r : Req) (e : Int) : St :=
  let x := r.complete e
  { s with req := upd s.req i x.1, refs := if x.2 then s.refs - 1 else s.refs }

/-- The next page is copied, or the loop ends, `/repo/src/metadata/metadata_passive_update.c:42-63`. -/
def St.copyNext (s : St) (i k : Nat) : Option (Nat × Nat × Nat) → St
  | some (g, p, b) =>
    { s with mem := upd2 s.mem g p ((s.req i).data b), by_ := upd2 s.by_ g p (some i),
             req := upd s.req i { s.req i with pc := .copy (k + 1) } }
  | none => { s with req := upd s.req i { s.req i with pc := .unlock 0 } }

/-- Events, `/repo/src/metadata/metadata_passive_update.c:28-140` and `/repo/src/ocf_cache.c:305-350`. `dev`: the
device completes the request. `ret`: last line of `ocf_cache_volume_submit_io`. `freeze`, `leave`,
`unfreeze`: a management operation that ends the standby state. -/
inductive Op where
  | submit (i : Nat)
  | update (i : Nat)
  | dev (i : Nat) (e : Int)
  | ret (i : Nat)
  | take (i e : Nat)
  | back (i e : Nat)
  | fail (i : Nat)
  | granted (i : Nat)
  | copy (i : Nat)
  | unlock (i : Nat)
  | freeze
  | leave
  | unfreeze

/-- One step; `none`: not possible now. `/repo/src/metadata/metadata_passive_update.c:28-140`. -/
def exec (c : Cfg) (s : St) : Op → Option St
  | .submit i => -- `/repo/src/ocf_cache.c:319-340`
    let r := s.req i
    if r.pc ≠ .idle then none
    else if s.frozen then
      some { s with req := upd s.req i { r with pc := .refused, ends := r.ends + 1, error := errIo } }
    else if !s.standby then
      some { s with req := upd s.req i { r with pc := .refused, ends := r.ends + 1, error := errNotStandby },
                    refs := s.refs + 1 }
    else some { s with req := upd s.req i { r with pc := .sent, remaining := 3 }, refs := s.refs + 1 }
  | .update i => -- `/repo/src/metadata/metadata_passive_update.c:84-126`
    let r := s.req i
    if r.pc ≠ .sent then none
    else match r.check c with
      | some e => some (s.complete i { r with pc := .over e } e)
      | none => some { s with req := upd s.req i { r with pc := .lock } }
  | .dev i e => -- `/repo/src/ocf_cache.c:336-338`
    let r := s.req i
    if r.dev ∨ r.pc = .idle ∨ r.pc = .refused then none
    else some (s.complete i { r with dev := true } e)
  | .ret i => -- `/repo/src/ocf_cache.c:349`
    let r := s.req i
    if r.ret ∨ r.pc = .idle ∨ r.pc = .refused ∨ r.pc = .sent then none
    else some (s.complete i { r with ret := true } 0)
  | .take i e => -- `/repo/src/concurrency/ocf_pio_concurrency.c:78-79`, `:119`, or handed over by an unlock
    let r := s.req i
    if r.pc = .lock ∧ e ∈ r.entries c ∧ s.owner e = none then
      some { s with owner := upd s.owner e (some i) }
    else none
  | .back i e => -- `/repo/src/concurrency/ocf_pio_concurrency.c:90-99`, `:130-136`
    let r := s.req i
    if r.pc = .lock ∧ s.owner e = some i then some { s with owner := upd s.owner e none } else none
  | .fail i => -- `/repo/src/metadata/metadata_passive_update.c:130-134`
    let r := s.req i
    if r.pc = .lock ∧ (r.entries c).all (fun e => decide (s.owner e ≠ some i)) then
      some (s.complete i { r with pc := .over errNoMem } errNoMem)
    else none
  | .granted i => -- `/repo/src/metadata/metadata_passive_update.c:71-74`, `:136-137`
    let r := s.req i
    if r.pc = .lock ∧ (r.entries c).all (fun e => decide (s.owner e = some i)) then
      some { s with req := upd s.req i { r with pc := .copy 0 } }
    else none
  | .copy i => -- `/repo/src/metadata/metadata_passive_update.c:42-63`
    let r := s.req i
    match r.pc with
    | .copy k => some (s.copyNext i k (r.plan c)[k]?)
    | _ => none
  | .unlock i => -- `/repo/src/concurrency/ocf_pio_concurrency.c:174-184`
    let r := s.req i
    match r.pc with
    | .unlock k =>
      if k < r.count then
        let o := match c.entry (r.start + k) with
          | some e => if s.owner e = some i then upd s.owner e none else s.owner
          | none => s.owner
        some { s with owner := o, req := upd s.req i { r with pc := .unlock (k + 1) } }
      else some (s.complete i { r with pc := .over 0 } 0)
    | _ => none
  | .freeze => -- `/repo/src/mngt/ocf_mngt_cache.c:2599`
    if s.frozen then none else some { s with frozen := true }
  | .leave => -- `/repo/src/mngt/ocf_mngt_cache.c:2600`; the callback on zero
    if s.frozen ∧ s.refs = 0 then some { s with standby := false } else none
  | .unfreeze => -- `/repo/src/mngt/ocf_mngt_cache.c:1997`
    if s.frozen then some { s with frozen := false } else none

/-- Runs, `/repo/src/metadata/metadata_passive_update.c:28-140`. -/
inductive Run (c : Cfg) : St → St → Prop where
  | refl (s : St) : Run c s s
  | step {s t u : St} (o : Op) : Run c s t → exec c t o = some u → Run c s u

end Verif.Passive
