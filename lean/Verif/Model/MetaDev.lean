/-!
Model of many flushes of metadata pages under way at the same time: page locks, the copy of memory to
the buffer, the write to the device, the release.
Sources: `/repo/src/metadata/metadata_io.c`, `/repo/src/concurrency/ocf_mio_concurrency.c`,
`/repo/src/metadata/metadata_raw.c`.

A request is one part of a flush (`struct metadata_io_request` between two calls of
`metadata_io_req_advance`; how a flush is cut into parts and told is C16). Any number of requests. The
contents of a page are represented by the number of changes made to it in memory so far; the sectors of
the page on the device each have such a number. Left out: reads from the device, which happen while
nothing is written, and the queues the requests go through.
-/

namespace Verif.MetaDev

/-- What a request does next, `/repo/src/metadata/metadata_io.c:202-298`. -/
inductive Pc where
  /-- not begun. -/
  | idle
  /-- in `ocf_mio_async_lock` or waiting in its lists, `/repo/src/metadata/metadata_io.c:255-256`. -/
  | lock
  /-- has its pages, `k` copied, `/repo/src/metadata/metadata_io.c:182-185`. -/
  | fill (k : Nat)
  /-- write under way, `/repo/src/metadata/metadata_io.c:220-223`. -/
  | write
  /-- completed with or without error, `k` pages passed by the unlock loop,
  `/repo/src/concurrency/ocf_mio_concurrency.c:128-136`. -/
  | unlock (k : Nat) (ok : Bool)
  /-- over. -/
  | done (ok : Bool)
deriving Repr, DecidableEq

/-- `struct metadata_io_request`, `/repo/src/metadata/metadata_io.h:50-59`: pages, position, data
buffer. `applied` is the device's: what it has stored of this write. -/
structure Req where
  first : Nat
  count : Nat
  pc : Pc
  buf : Nat → Nat
  applied : List (Nat × Nat)

/-- Pages of the request, `ocf_mio_lock_get_entry` over all indices,
`/repo/src/concurrency/ocf_mio_concurrency.c:20-32`, `:80-81`. -/
def Req.pages (r : Req) : List Nat := List.range' r.first r.count

/-- Memory (`raw->mem_pool`, `/repo/src/metadata/metadata_raw.h:87`), device, page locks (`raw->mio_conc`,
`/repo/src/metadata/metadata_raw.h:96`; only write locks are used,
`/repo/src/concurrency/ocf_mio_concurrency.c:118`), requests. -/
structure St where
  mem : Nat → Nat
  dev : Nat → Nat → Nat
  owner : Nat → Option Nat
  req : Nat → Req

/-- Sectors of a page, `PAGE_SIZE`, `/repo/env/posix/ocf_env.h:45`, of 512 bytes. -/
def spp : Nat := 8

/-- Nothing begun: any requests to come, memory as on the device after a load or a first flush,
`/repo/src/metadata/metadata_raw.c:323-347`. -/
def init (rs : Nat → Nat × Nat) : St :=
  ⟨fun _ => 0, fun _ _ => 0, fun _ => none, fun i => ⟨(rs i).1, (rs i).2, .idle, fun _ => 0, []⟩⟩

/-- Events in any order, those of `/repo/src/metadata/metadata_io.c:202-298` and of the device. `change`: somebody changes an entry of the page in memory. `take`/`back`: a
page lock is obtained, or given back when not all could be had. `apply`: the device stores a sector. -/
inductive Op where
  | change (p : Nat)
  | start (i : Nat)
  | take (i p : Nat)
  | back (i p : Nat)
  | fail (i : Nat)
  | begin_ (i : Nat)
  | copy (i : Nat)
  | submit (i : Nat)
  | apply (i p j : Nat)
  | finish (i : Nat) (ok : Bool)
  | next (i : Nat)
deriving Repr, DecidableEq

/-- replace one value, an assignment through a pointer (`/repo/src/metadata/metadata_io.c:248`). -/
def upd {α : Type} (f : Nat → α) (i : Nat) (a : α) : Nat → α := fun x => if x = i then a else f x

/-- One step, `/repo/src/metadata/metadata_io.c:202-298`. -/
def exec (s : St) : Op → Option St
  | .change p => -- under the page lock taken for reading, `/repo/src/utils/utils_cache_line.h:288-293`
    some { s with mem := upd s.mem p (s.mem p + 1) }
  | .start i => -- `/repo/src/metadata/metadata_io.c:248-256`
    let r := s.req i
    match r.pc with
    | .idle => some { s with req := upd s.req i { r with pc := .lock } }
    | _ => none
  | .take i p => -- fast `/repo/src/concurrency/ocf_mio_concurrency.c:46-48`, slow `:84`, or handed over
    let r := s.req i
    match r.pc, s.owner p with
    | .lock, none =>
      if p ∈ r.pages then some { s with owner := upd s.owner p (some i) } else none
    | _, _ => none
  | .back i p => -- `/repo/src/concurrency/ocf_mio_concurrency.c:57-67`, `:94-97`
    let r := s.req i
    match r.pc with
    | .lock => if s.owner p = some i then some { s with owner := upd s.owner p none } else none
    | _ => none
  | .fail i => -- `/repo/src/metadata/metadata_io.c:258-262`
    let r := s.req i
    match r.pc with
    | .lock =>
      if r.pages.all (fun p => decide (s.owner p ≠ some i)) then
        some { s with req := upd s.req i { r with pc := .done false } }
      else none
    | _ => none
  | .begin_ i => -- `/repo/src/metadata/metadata_io.c:237-240`, `:264-265`
    let r := s.req i
    match r.pc with
    | .lock =>
      if r.pages.all (fun p => decide (s.owner p = some i)) then
        some { s with req := upd s.req i { r with pc := .fill 0 } }
      else none
    | _ => none
  | .copy i =>
    -- `/repo/src/metadata/metadata_io.c:182-185` with `/repo/src/metadata/metadata_raw.c:495-499`; the
    -- memory page is locked against changes meanwhile, so a page is copied in one step
    let r := s.req i
    match r.pc with
    | .fill k =>
      if k < r.count then
        let r' := { r with pc := .fill (k + 1), buf := upd r.buf (r.first + k) (s.mem (r.first + k)) }
        some { s with req := upd s.req i r' }
      else none
    | _ => none
  | .submit i => -- `/repo/src/metadata/metadata_io.c:220-223`
    let r := s.req i
    match r.pc with
    | .fill k =>
      if k < r.count then none
      else some { s with req := upd s.req i { r with pc := .write, applied := [] } }
    | _ => none
  | .apply i p j => -- the device stores a sector of a write under way, as often as it likes
    let r := s.req i
    match r.pc with
    | .write =>
      if p ∈ r.pages ∧ j < spp then
        some { s with
          dev := upd s.dev p (upd (s.dev p) j (r.buf p))
          req := upd s.req i { r with applied := (p, j) :: r.applied } }
      else none
    | _ => none
  | .finish i ok => -- `/repo/src/metadata/metadata_io.c:275-293`; success means that all is stored
    let r := s.req i
    match r.pc with
    | .write =>
      if ok = true ∧ ¬ r.pages.all (fun p => (List.range spp).all (fun j => decide ((p, j) ∈ r.applied)))
      then none
      else some { s with req := upd s.req i { r with pc := .unlock 0 ok } }
    | _ => none
  | .next i => -- `/repo/src/concurrency/ocf_mio_concurrency.c:128-136`
    let r := s.req i
    match r.pc with
    | .unlock k ok =>
      if k < r.count then
        some { s with owner := upd s.owner (r.first + k) none
                      req := upd s.req i { r with pc := .unlock (k + 1) ok } }
      else some { s with req := upd s.req i { r with pc := .done ok } }
    | _ => none

/-- a run of steps, `/repo/src/metadata/metadata_io.c:202-298`. -/
inductive Run (s : St) : List Op → St → Prop where
  | nil : Run s [] s
  | snoc {ops : List Op} {s' s'' : St} {o : Op} :
      Run s ops s' → exec s' o = some s'' → Run s (ops ++ [o]) s''

end Verif.MetaDev
