/-! Model of the transfer of a range of metadata pages, `/repo/src/metadata/metadata_io.c`
(`metadata_io_i_asynch` and what it calls): the range is cut into parts, which up to 128 requests take
one after another.

Every access to the shared state is a step of its own; the steps of the calling thread and of the
requests come in any order.  Left out: the allocations and their failure (`:397-399`, `:437-438`,
`:453-459`), the queues the requests go through, the locking of the metadata while a page is filled
(`:211-216`), and how the pages are locked (the answer of `ocf_mio_async_lock` is arbitrary; C06). -/

namespace Verif.MetaIo

/-- The arguments of `metadata_io_i_asynch`, `/repo/src/metadata/metadata_io.c:379-383`, and
`metadata_io_max_page`, `/repo/src/metadata/metadata_io.c:311-319`. -/
structure Cfg where
  page : Nat
  count : Nat
  max : Nat
  read : Bool

/-- `OCF_DIV_ROUND_UP(count, max_count)` in 32 bits, `/repo/src/metadata/metadata_io.c:334`, `:388`. -/
def nParts (g : Cfg) : Nat := (g.count + g.max - 1) % 2 ^ 32 / g.max

/-- `req_count`, `/repo/src/metadata/metadata_io.c:389`, with `METADATA_IO_REQS_LIMIT` (`:61`). -/
def nReqs (g : Cfg) : Nat := min (nParts g) 128

/-- First page of part `k`, `/repo/src/metadata/metadata_io.c:340`; 32-bit arithmetic. -/
def partPage (g : Cfg) (k : Nat) : Nat := (g.page + k * g.max) % 2 ^ 32

/-- Number of pages of part `k`, `/repo/src/metadata/metadata_io.c:341`; 32-bit arithmetic. -/
def partCount (g : Cfg) (k : Nat) : Nat := min ((g.count + 2 ^ 32 - k * g.max % 2 ^ 32) % 2 ^ 32) g.max

/-- The pages of part `k`, as the loops of `metadata_io_req_fill` and `metadata_io_req_drain` come to
them, `/repo/src/metadata/metadata_io.c:182-185`, `:194-197`. -/
def partPages (g : Cfg) (k : Nat) : List Nat := List.range' (partPage g k) (partCount g k)

/-- Pages in the buffer of request `i`, `/repo/src/metadata/metadata_io.c:435-436`; 32-bit
arithmetic. -/
def bufPages (g : Cfg) (i : Nat) : Nat := min g.max ((g.count + 2 ^ 32 - i * g.max % 2 ^ 32) % 2 ^ 32)

/-- What a request does next, with the lines of `/repo/src/metadata/metadata_io.c`.  `fs`: called from
`metadata_io_req_start` (`:345-360`), otherwise from `metadata_io_end` (`:275-298`).  `o`: the part in
`m_req->page` and `m_req->count`, `none` if the count is zero; it is zero when the request was
allocated, zeroed.
`idle`: not started.  `begin`: raise `req_active` (`:350`).  `check`: read the error (`:327`).
`take`: take the next part (`:332`).  `drop`: lower `req_remaining` (`:305`).  `call`: report (`:306`).
`free`: free the buffer (`:308`).  `post`: look if there is a part to transfer (`:354` or `:366`), with
(added) whether `metadata_io_req_end` was called.  `lock`: lock the pages (`:250-266`).  `wait`: wait
for the lock (`:237-240`).  `io`: the transfer was forwarded (`:222`).  `err`: store the error `v`
(`:284`).  `lerr`: store the error `v` of the lock (`:259`).  `fin`: lower `req_active` (`:232`).
`del`: free the memory of all requests (`:233`).  `done`: finished.  `lost` (added): the part the
request took and did not transfer before it finished. -/
inductive Ph
  | idle
  | begin
  | check (fs : Bool) (o : Option Nat)
  | take (fs : Bool) (o : Option Nat)
  | drop (fs : Bool) (o : Option Nat)
  | call (fs : Bool) (o : Option Nat)
  | free (fs : Bool) (o : Option Nat)
  | post (fs : Bool) (o : Option Nat) (ended : Bool)
  | lock (k : Nat)
  | wait (k : Nat)
  | io (k : Nat)
  | err (k : Nat) (v : Int)
  | lerr (k : Nat) (v : Int)
  | fin (lost : Option Nat)
  | del (lost : Option Nat)
  | done (lost : Option Nat)
deriving DecidableEq

/-- The request is in `metadata_io_req_start`, which the calling thread executes,
`/repo/src/metadata/metadata_io.c:345-357`. -/
def Ph.starting : Ph → Bool
  | .begin => true
  | .check fs _ => fs
  | .take fs _ => fs
  | .drop fs _ => fs
  | .call fs _ => fs
  | .free fs _ => fs
  | .post fs _ _ => fs
  | _ => false

/-- What the calling thread does next: the loop that starts the requests
(`/repo/src/metadata/metadata_io.c:442-445`), report (`:446`), lower `req_active` (`:448`), free the
memory (`:449`), or it has returned (`:451`). -/
inductive Main
  | start (i : Nat)
  | call
  | fin
  | del
  | done
deriving DecidableEq

/-- `struct metadata_io_request_asynch` (`/repo/src/metadata/metadata_io.h:64-79`) with its requests;
`next` is `req_current + 1`.  Added: the parts transferred, those finished with their error, the pages
filled and drained, all errors that occurred, the reports, the buffers freed, and how often the
memory was freed. -/
structure State where
  pc : Main
  reqs : List Ph
  remaining : Nat
  active : Nat
  next : Nat
  error : Int
  issued : List Nat
  finished : List (Nat × Int)
  filled : List Nat
  drained : List Nat
  errs : List Int
  calls : List Int
  freed : List Nat
  deleted : Nat
deriving DecidableEq

/-- The state before the first request is started, `/repo/src/metadata/metadata_io.c:401-412`. -/
def init (g : Cfg) : State :=
  ⟨.start 0, List.replicate (nReqs g) .idle, 1, 1, 0, 0, [], [], [], [], [], [], [], 0⟩

/-- The answer of `ocf_mio_async_lock`, `/repo/src/metadata/metadata_io.c:255-265`; without
`mio_conc` (`:250-253`) it is as if the lock was acquired. -/
inductive LockRes
  | acquired
  | queued
  | failed (v : Int)
deriving DecidableEq

/-- The steps: of the calling thread, of a request, the answer of the lock, the end of the wait for
the lock, the end of a transfer with its error; `/repo/src/metadata/metadata_io.c:202-451`. -/
inductive Op
  | main
  | step (i : Nat)
  | lockRes (i : Nat) (r : LockRes)
  | grant (i : Nat)
  | ioEnd (i : Nat) (e : Int)
deriving DecidableEq

/-- The calling thread, `/repo/src/metadata/metadata_io.c:442-451`; the first step of
`metadata_io_req_start` (`:349`) included. -/
def execMain (st : State) : Option State :=
  match st.pc with
  | .start i =>
    match st.reqs[i]? with
    | none => some { st with remaining := st.remaining - 1,
                             pc := if st.remaining - 1 = 0 then .call else .fin }
    | some .idle => some { st with remaining := st.remaining + 1, reqs := st.reqs.set i .begin }
    | some ph => if ph.starting then none else some { st with pc := .start (i + 1) }
  | .call => some { st with calls := st.calls ++ [st.error], pc := .fin }
  | .fin => some { st with active := st.active - 1,
                           pc := if st.active - 1 = 0 then .del else .done }
  | .del => some { st with deleted := st.deleted + 1, pc := .done }
  | .done => none

/-- A step of request `i`; the lines are cited at `Ph`, all of
`/repo/src/metadata/metadata_io.c:228-374`. -/
def execStep (g : Cfg) (st : State) (i : Nat) : Ph → Option State
  | .begin => some { st with active := st.active + 1, reqs := st.reqs.set i (.check true none) }
  | .check fs o =>
    some { st with reqs := st.reqs.set i (if st.error ≠ 0 then .drop fs o else .take fs o) }
  | .take fs _ =>
    some { st with next := st.next + 1,
                   reqs := st.reqs.set i (if nParts g ≤ st.next then .drop fs none
                     else .post fs (some st.next) false) }
  | .drop fs o =>
    some { st with remaining := st.remaining - 1,
                   reqs := st.reqs.set i (if st.remaining - 1 = 0 then .call fs o else .free fs o) }
  | .call fs o => some { st with calls := st.calls ++ [st.error], reqs := st.reqs.set i (.free fs o) }
  | .free fs o => some { st with freed := st.freed ++ [i], reqs := st.reqs.set i (.post fs o true) }
  | .post true none _ => some { st with reqs := st.reqs.set i (.fin none) }
  | .post true (some k) _ => some { st with reqs := st.reqs.set i (.lock k) }
  | .post false none _ => some { st with reqs := st.reqs.set i (.fin none) }
  | .post false (some k) ended =>
    some { st with
      reqs := st.reqs.set i (if st.error ≠ 0 then .fin (if ended then none else some k) else .lock k) }
  | .err k v => some { st with error := v, reqs := st.reqs.set i (.check false (some k)) }
  | .lerr k v => some { st with error := v, reqs := st.reqs.set i (.fin (some k)) }
  | .fin lost =>
    some { st with active := st.active - 1,
                   reqs := st.reqs.set i (if st.active - 1 = 0 then .del lost else .done lost) }
  | .del lost => some { st with deleted := st.deleted + 1, reqs := st.reqs.set i (.done lost) }
  | _ => none

/-- `metadata_io_do`, `/repo/src/metadata/metadata_io.c:202-226`. -/
def issue (g : Cfg) (st : State) (i k : Nat) : State :=
  { st with issued := st.issued ++ [k], filled := if g.read then st.filled else st.filled ++ partPages g k,
            reqs := st.reqs.set i (.io k) }

/-- Effect of a step, `none` if it cannot be taken; `/repo/src/metadata/metadata_io.c:202-451`.
`lockRes`: `:255-265`, a negative answer is an error.  `grant`: `:237-240`.  `ioEnd`: `:275-293` up to
the read of the old error (`:284`). -/
def exec (g : Cfg) (st : State) : Op → Option State
  | .main => execMain st
  | .step i => (st.reqs[i]?).bind (execStep g st i)
  | .lockRes i r =>
    match st.reqs[i]?, r with
    | some (.lock k), .acquired => some (issue g st i k)
    | some (.lock k), .queued => some { st with reqs := st.reqs.set i (.wait k) }
    | some (.lock k), .failed v =>
      if v = 0 then none
      else some { st with errs := st.errs ++ [v], reqs := st.reqs.set i (.lerr k v) }
    | _, _ => none
  | .grant i =>
    match st.reqs[i]? with
    | some (.wait k) => some (issue g st i k)
    | _ => none
  | .ioEnd i e =>
    match st.reqs[i]? with
    | some (.io k) =>
      if e = 0 then
        some { st with finished := st.finished ++ [(k, e)],
                       drained := if g.read then st.drained ++ partPages g k else st.drained,
                       reqs := st.reqs.set i (.check false (some k)) }
      else
        some { st with finished := st.finished ++ [(k, e)], errs := st.errs ++ [e],
                       reqs := st.reqs.set i (.err k (if st.error ≠ 0 then st.error else e)) }
    | _ => none

/-- A run of steps, `/repo/src/metadata/metadata_io.c:379-451`. -/
inductive Run (g : Cfg) : State → List Op → State → Prop
  | nil (st : State) : Run g st [] st
  | snoc {st st' st'' : State} {ops : List Op} {op : Op} : Run g st ops st' →
      exec g st' op = some st'' → Run g st (ops ++ [op]) st''

end Verif.MetaIo
