/-!
# Concurrent model of the I/O engines

Any number of requests of every engine (`ocf_read_generic`, `ocf_read_pt`,
`ocf_read_wo`, `ocf_write_wt`, `ocf_write_wb`, `ocf_write_wi`,
`ocf_engine_discard`) and any number of background cleaner requests run at the same
time over one cache.  Every step below is one atomic action of one request (a metadata update under the hash
bucket lock, one sector reaching or leaving a device, one completion).  Between
submission and completion of a device I/O its sectors are transferred one by
one in any order, interleaved with everything else.

Simplifications, for the whole file:
* a core line (`Nat`) stands for the pair (core id, core line number);
* any device transfer may fail, at any point; the sectors of a failed transfer which
  reached their device are those transferred so far, the others are unchanged;
* an engine which reports an error first and then drops the affected sectors does both
  in one step: it holds the lines exclusively in between;
* out of memory is modelled where it shows as an error of the request (backfill
  buffer, locks);
* a device transfer of one sector is atomic, and durable once it happened;
* the on-disk metadata of one cache line changes atomically;
* per-request flags which only serve speed are read off the current state at the
  moment the request goes ahead, when it holds its locks;
* a discard which needs several passes over the metadata (`MAX_TRIM_RQ_SIZE`) is taken
  as one discard per pass, all called together;
* management operations are not part of this file.
-/

namespace Verif.Engine

/-- Point update of a function.  Auxiliary; no counterpart in the code. -/
def upd {α β : Type} [DecidableEq α] (f : α → β) (a : α) (b : β) : α → β :=
  fun x => if x = a then b else f x

/-- Point update of a two-argument function.  Auxiliary; no counterpart in the
code. -/
def upd2 {β : Type} (f : Nat → Nat → β) (a b : Nat) (v : β) : Nat → Nat → β :=
  fun x y => if x = a ∧ y = b then v else f x y

/-- The engine serving a request.
`gen` /repo/src/engine/engine_rd.c:174-221, `pt` /repo/src/engine/engine_pt.c:93-160,
`wo` /repo/src/engine/engine_wo.c:200-248, `wt` /repo/src/engine/engine_wt.c:184-220,
`wb` /repo/src/engine/engine_wb.c:148-186, `wi` and `wi2` first and second pass of
/repo/src/engine/engine_wi.c:163-212 (`wi2` also a discard,
/repo/src/engine/engine_discard.c:200-220, which purges its lines the same way), `cln` a background cleaner request
/repo/src/utils/utils_cleaner.c:709-772.  `ocf_write_wa`
(/repo/src/engine/engine_wa.c:20-52) picks `wt` or `wi`; the fast paths
(/repo/src/engine/engine_fast.c:93-149, 159-215) are `gen` hits and `wb` on lines
that are mapped already. -/
inductive Eng
  | gen | pt | wo | wt | wb | wi | wi2 | cln
  deriving DecidableEq

/-- The engines serving writes: the `OCF_WRITE` column of the engine table
/repo/src/engine/cache_engine.c:46-110. -/
def Eng.isWr : Eng → Bool
  | .wt | .wb | .wi | .wi2 => true
  | _ => false

/-- The engines serving reads: the `OCF_READ` column of the engine table
/repo/src/engine/cache_engine.c:46-110. -/
def Eng.isRd : Eng → Bool
  | .gen | .pt | .wo => true
  | _ => false

/-- Where a request is.  `look`: looking up, mapping and locking its lines
(/repo/src/engine/engine_common.c:460-538); `clean`: waiting for its lines to be
written back (/repo/src/engine/engine_common.c:562-580); `cread`: cache read
submitted (/repo/src/engine/engine_rd.c:76-80); `oread`: core read submitted
(/repo/src/engine/engine_rd.c:82-106, /repo/src/engine/engine_pt.c:37-43,
/repo/src/engine/engine_wo.c:172-198); `over`: WO overlay from the cache
(/repo/src/engine/engine_wo.c:52-151); `fill`: backfill
(/repo/src/engine/engine_bf.c:86-97); `xfer`: write submitted, or completed and
updating metadata (/repo/src/engine/engine_wt.c:139-152,
/repo/src/engine/engine_wb.c:98-123, /repo/src/engine/engine_wi.c:119-155). -/
inductive Pc
  | free | look | clean | cread | oread | over | fill | xfer
  deriving DecidableEq

/-- The lookup status of one map entry: not traversed yet, `LOOKUP_MISS`, or mapped
to a cache line. /repo/src/engine/cache_engine.h:14-15,
/repo/src/ocf_request.h:72-103. -/
inductive Ent
  | unseen | none | line (l : Nat)
  deriving DecidableEq

/-- A request. /repo/src/ocf_request.h:166-250 (`ocf_request`) and
/repo/src/ocf_request.h:36-103 (`ocf_req_info`, `ocf_map_info`).  `on` are the core lines touched, `has` the sectors, `data` the
write buffer, `ent` the map entries, `held` the entries whose cache line lock was
granted (exclusive if `excl`, that is `alock_rw == OCF_WRITE`), `res` the read
buffer, `toCache`/`toCore` the sectors still to be transferred, `buf`, `fired`,
`wback`, `marked` the state of cleaning one line, `updd` that the metadata of the
entry has been updated, `need` that its metadata flush is outstanding
(`map[i].flush`), `gone` that this request removed the line from the collision
table, `dany` the recorded `info.dirty_any` (for a discard: that the metadata has been
dealt with), `disc` that the request is a discard
(/repo/src/ocf_core.c:362-404). -/
structure Req (D : Type) where
  eng : Eng
  pc : Pc
  excl : Bool
  on : Nat → Bool
  has : Nat → Nat → Bool
  data : Nat → Nat → D
  ent : Nat → Ent
  held : Nat → Bool
  res : Nat → Nat → Option D
  toCache : Nat → Nat → Bool
  toCore : Nat → Nat → Bool
  buf : Nat → Nat → D
  fired : Nat → Bool
  wback : Nat → Nat → Bool
  marked : Nat → Bool
  updd : Nat → Bool
  need : Nat → Bool
  gone : Nat → Bool
  dany : Bool
  disc : Bool

/-- The state: both devices, the mapping and status bits in RAM, the copy of the
mapping and dirty bits on the cache device, and all requests.
/repo/src/metadata/metadata_collision.h:26-35 (mapping and status bits),
/repo/src/metadata/metadata_raw.c:542-640 (copy on the cache device).
Lines and sectors are unbounded. -/
structure St (D : Type) where
  core : Nat → Nat → D
  cache : Nat → Nat → D
  map : Nat → Option Nat
  valid : Nat → Nat → Bool
  dirty : Nat → Nat → Bool
  dmap : Nat → Option Nat
  ddirty : Nat → Nat → Bool
  req : Nat → Req D

/-- The request right after it entered the engine: nothing traversed, nothing
locked. /repo/src/ocf_request.c:187-257, /repo/src/engine/engine_common.c:253-257. -/
def Req.fresh {D : Type} (r : Req D) (e : Eng) (p : Pc) (x : Bool) : Req D :=
  { r with
    eng := e, pc := p, excl := x
    ent := fun _ => .unseen, held := fun _ => false, res := fun _ _ => none
    toCache := fun _ _ => false, toCore := fun _ _ => false
    fired := fun _ => false, wback := fun _ _ => false, marked := fun _ => false
    updd := fun _ => false, need := fun _ => false, gone := fun _ => false
    dany := false }

/-- A request that is over: all locks are dropped.
/repo/src/ocf_request.c:384-408,
/repo/src/concurrency/ocf_cache_line_concurrency.c:193-237. -/
def Req.done {D : Type} (r : Req D) : Req D :=
  { r.fresh r.eng .free false with
    on := fun _ => false, has := fun _ _ => false }

/-- The write engines lock for write: /repo/src/engine/engine_wi.c:184-191 and
/repo/src/engine/engine_common.c:423-434.  `gen` may lock either way (same lines), the
others lock for read (/repo/src/engine/engine_pt.c:117-128,
/repo/src/engine/engine_wo.c:219-226, /repo/src/utils/utils_cleaner.c:230-239). -/
def Eng.lockOk (e : Eng) (x : Bool) : Prop :=
  (e.isWr = true → x = true) ∧ ((e = .pt ∨ e = .wo ∨ e = .cln) → x = false)

/-- Every entry was traversed, and every mapped one is locked: the request may
continue. /repo/src/engine/engine_common.c:460-538 returns `OCF_LOCK_ACQUIRED` or
the lock's completion resumes the request. -/
def Req.ready {D : Type} (r : Req D) : Prop :=
  ∀ c, r.on c = true →
    r.ent c ≠ .unseen ∧ (∀ l, r.ent c = .line l → r.held c = true)

/-- No mapped line of the request has a dirty sector: `!req->info.dirty_any`.
/repo/src/engine/engine_common.c:134-186. -/
def St.noDirty {D : Type} (s : St D) (r : Req D) : Prop :=
  ∀ c l t, r.on c = true → r.ent c = .line l → s.dirty l t = false

/-- Every sector of the request is mapped and valid: `ocf_engine_is_hit`.
/repo/src/engine/engine_common.c:134-186, /repo/src/engine/engine_common.h:36-49. -/
def St.hit {D : Type} (s : St D) (r : Req D) : Prop :=
  ∀ c t, r.has c t = true → ∃ l, r.ent c = .line l ∧ s.valid l t = true

/-- Request `j` has an entry for line `l`, waiting for its lock or holding it.
/repo/src/utils/utils_alock.c:378-491 (the lock is granted or the entry is queued). -/
def St.refs {D : Type} (s : St D) (j l : Nat) : Prop :=
  ∃ c, (s.req j).ent c = .line l

/-- Request `j` holds the lock of line `l` through its entry `c`.
/repo/src/utils/utils_alock.c:366-376. -/
def St.holds {D : Type} (s : St D) (j c l : Nat) : Prop :=
  (s.req j).ent c = .line l ∧ (s.req j).held c = true

/-- Replace request `i`. Auxiliary; no counterpart in the code. -/
def St.setReq {D : Type} (s : St D) (i : Nat) (r : Req D) : St D :=
  { s with req := upd s.req i r }

/-- What an observer of the core volumes sees: calls, their completions, and
crashes.  /repo/src/ocf_core.c:259-327 (submission), /repo/src/ocf_core.c:210-218
(completion). -/
inductive Ev (D : Type)
  | tau
  | invR (i : Nat) (has : Nat → Nat → Bool)
  | retR (i : Nat) (res : Nat → Nat → Option D)
  | invW (i : Nat) (has : Nat → Nat → Bool) (data : Nat → Nat → D)
  | ackW (i : Nat)
  | errR (i : Nat)
  | errW (i : Nat)
  | invD (i : Nat) (has : Nat → Nat → Bool)
  | crash

/-- The internal steps named in the hypotheses of theorems: a lookup not finding a
core line, mapping a core line to a cache line, a cleaner writing back one sector
of a line, a request going on although the metadata flushes outstanding have failed,
and a write dropping its sectors from the cache after an error.
/repo/src/engine/engine_common.c:39-74, /repo/src/engine/engine_common.c:310-329,
/repo/src/utils/utils_cleaner.c:449-487, /repo/src/utils/utils_cleaner.c:299-313,
/repo/src/engine/engine_inv.c:35-52. -/
inductive Act
  | other
  | miss (i c : Nat)
  | remap (c l : Nat)
  | wback (i c t : Nat)
  | quit (i : Nat)
  | purge (i : Nat)

/-- The status bits `b` without the sectors of the request: `ocf_purge_map_info`.
/repo/src/utils/utils_cache_line.h:170-215. -/
def Req.purged {D : Type} (r : Req D) (b w : Nat → Nat → Bool) : Prop :=
  ∀ l t, w l t = true ↔ b l t = true ∧ ¬ ∃ c, r.has c t = true ∧ r.ent c = .line l

/-- One step of the system; `S` is the number of sectors of a line. -/
inductive Step {D : Type} (S : Nat) : St D → Act → Ev D → St D → Prop
  /-- A read arrives. /repo/src/ocf_core.c:259-327. -/
  | invR (s i r e x) : (s.req i).pc = .free → Eng.isRd e = true → e.lockOk x →
      (∀ c t, r.has c t = true → r.on c = true) →
      (∀ c t, r.has c t = true → t < S) →
      Step S s .other (.invR i r.has) (s.setReq i (Req.fresh r e .look x))
  /-- A write arrives. /repo/src/ocf_core.c:259-327. -/
  | invW (s i r e) : (s.req i).pc = .free → (e = .wt ∨ e = .wb ∨ e = .wi) →
      r.disc = false →
      (∀ c t, r.has c t = true → r.on c = true) →
      (∀ c t, r.has c t = true → t < S) →
      Step S s .other (.invW i r.has r.data) (s.setReq i (Req.fresh r e .look true))
  /-- A discard arrives. /repo/src/ocf_core.c:362-404,
  /repo/src/engine/engine_discard.c:200-220.  From here on it looks up, locks and purges
  its lines like the second pass of WI. /repo/src/engine/engine_discard.c:145-198,
  /repo/src/engine/engine_discard.c:94-137. -/
  | invD (s i r) : (s.req i).pc = .free → r.disc = true →
      (∀ c t, r.has c t = true → r.on c = true) →
      (∀ c t, r.has c t = true → t < S) →
      Step S s .other (.invD i r.has) (s.setReq i (Req.fresh r .wi2 .look true))
  /-- A background cleaner request starts, with no lines yet.
  /repo/src/utils/utils_cleaner.c:709-772. -/
  | invC (s i) : (s.req i).pc = .free →
      Step S s .other .tau (s.setReq i ((s.req i).done.fresh .cln .clean false))
  /-- Lookup finds the core line mapped. /repo/src/engine/engine_common.c:39-74. -/
  | look (s i c l) : (s.req i).pc = .look → (s.req i).on c = true →
      (s.req i).ent c = .unseen → s.map l = some c →
      Step S s .other .tau (s.setReq i { s.req i with ent := upd (s.req i).ent c (.line l) })
  /-- Lookup finds the core line not mapped, in an engine which does not map.
  /repo/src/engine/engine_common.c:39-74, /repo/src/engine/engine_pt.c:110-129,
  /repo/src/engine/engine_wo.c:216-226, /repo/src/engine/engine_wi.c:181-191. -/
  | miss (s i c) : (s.req i).pc = .look → (s.req i).on c = true →
      (s.req i).ent c = .unseen → (∀ l, s.map l ≠ some c) →
      ((s.req i).eng = .pt ∨ (s.req i).eng = .wo ∨ (s.req i).eng = .wi ∨
        (s.req i).eng = .wi2) →
      Step S s (.miss i c) .tau (s.setReq i { s.req i with ent := upd (s.req i).ent c .none })
  /-- The lock of a mapped line is granted. /repo/src/utils/utils_alock.c:378-491. -/
  | grab (s i c l) : (s.req i).pc = .look → (s.req i).ent c = .line l →
      (s.req i).held c = false →
      (∀ j d, j ≠ i → s.holds j d l → (s.req i).excl = false ∧ (s.req j).excl = false) →
      Step S s .other .tau (s.setReq i { s.req i with held := upd (s.req i).held c true })
  /-- An unmapped core line gets a clean cache line nobody uses or waits for; the
  line is locked for write. /repo/src/engine/engine_common.c:310-329,
  /repo/src/engine/engine_common.c:400-421, /repo/src/ocf_lru.c:407-438. -/
  | remap (s i c l) : (s.req i).pc = .look → (s.req i).on c = true →
      (s.req i).ent c = .unseen → (s.req i).excl = true →
      ((s.req i).eng = .gen ∨ (s.req i).eng = .wt ∨ (s.req i).eng = .wb) →
      (∀ k, s.map k ≠ some c) → (∀ j, ¬ s.refs j l) → (∀ t, s.dirty l t = false) →
      Step S s (.remap c l) .tau
        { s with
          map := upd s.map l (some c)
          valid := fun k t => if k = l then false else s.valid k t
          req := upd s.req i
            { s.req i with
              ent := upd (s.req i).ent c (.line l)
              held := upd (s.req i).held c true } }
  /-- Mapping failed: a line mapped by this request is given back.
  /repo/src/engine/engine_common.c:332-373. -/
  | drop (s i c l) : (s.req i).pc = .look → (s.req i).excl = true →
      ((s.req i).eng = .gen ∨ (s.req i).eng = .wt ∨ (s.req i).eng = .wb) →
      s.holds i c l → (∀ t, s.valid l t = false) → (∀ j, j ≠ i → ¬ s.refs j l) →
      Step S s .other .tau
        { s with
          map := upd s.map l none
          req := upd s.req i
            { s.req i with
              ent := upd (s.req i).ent c .unseen
              held := upd (s.req i).held c false } }
  /-- Mapping failed, or the request need not use the cache: all locks are dropped
  and another engine serves it. /repo/src/engine/engine_rd.c:210-214,
  /repo/src/engine/engine_pt.c:113-139, /repo/src/engine/engine_wt.c:211-213,
  /repo/src/engine/engine_wb.c:177-179. -/
  | restart (s i e x) : (s.req i).pc = .look →
      ((s.req i).eng = .gen ∧ e = .pt ∨ (s.req i).eng = .pt ∧ e = .gen ∨
        ((s.req i).eng = .wt ∨ (s.req i).eng = .wb) ∧ e = .wi) → e.lockOk x →
      Step S s .other .tau (s.setReq i ((s.req i).fresh e .look x))
  /-- Read hit: submit the cache read. /repo/src/engine/engine_rd.c:108-167,
  /repo/src/engine/engine_wo.c:172-198. -/
  | goHit (s i) : (s.req i).pc = .look → (s.req i).ready → s.hit (s.req i) →
      ((s.req i).eng = .gen ∨ (s.req i).eng = .wo) →
      Step S s .other .tau (s.setReq i { s.req i with pc := .cread })
  /-- Lines have to be written back first. /repo/src/engine/engine_rd.c:122-136,
  /repo/src/engine/engine_pt.c:50-60, /repo/src/engine/engine_wi.c:124-135,
  /repo/src/engine/engine_common.c:562-580. -/
  | goClean (s i) : (s.req i).pc = .look → (s.req i).ready →
      ((s.req i).eng = .gen ∨ (s.req i).eng = .pt ∨ (s.req i).eng = .wi) →
      Step S s .other .tau (s.setReq i { s.req i with pc := .clean })
  /-- Submit the core read, nothing being dirty.
  /repo/src/engine/engine_rd.c:82-106, /repo/src/engine/engine_pt.c:37-43. -/
  | goCore (s i) : (s.req i).pc = .look → (s.req i).ready →
      ((s.req i).eng = .gen ∨ (s.req i).eng = .pt) → s.noDirty (s.req i) →
      Step S s .other .tau (s.setReq i { s.req i with pc := .oread })
  /-- WO: submit the core read, recording whether anything is dirty.
  /repo/src/engine/engine_wo.c:172-198. -/
  | goCoreWo (s i b) : (s.req i).pc = .look → (s.req i).ready →
      (s.req i).eng = .wo → (b = false → s.noDirty (s.req i)) →
      Step S s .other .tau (s.setReq i { s.req i with pc := .oread, dany := b })
  /-- One sector arrives from the cache. /repo/src/engine/engine_rd.c:76-80. -/
  | rdCache (s i c t l) : (s.req i).pc = .cread → (s.req i).has c t = true →
      (s.req i).ent c = .line l →
      Step S s .other .tau
        (s.setReq i { s.req i with res := upd2 (s.req i).res c t (some (s.cache l t)) })
  /-- One sector arrives from the core. /repo/src/engine/engine_rd.c:82-106,
  /repo/src/engine/engine_pt.c:37-43. -/
  | rdCore (s i c t) : (s.req i).pc = .oread → (s.req i).has c t = true →
      Step S s .other .tau
        (s.setReq i { s.req i with res := upd2 (s.req i).res c t (some (s.core c t)) })
  /-- WO: the core read is complete and something was dirty: read every valid
  sector from the cache on top. /repo/src/engine/engine_wo.c:153-170,
  /repo/src/engine/engine_wo.c:52-151. -/
  | goOver (s i m) : (s.req i).pc = .oread → (s.req i).eng = .wo →
      (∀ c t, (s.req i).has c t = true → (s.req i).res c t ≠ none) →
      (s.req i).dany = true →
      (∀ c t, m c t = true ↔
        (s.req i).has c t = true ∧ ∃ l, (s.req i).ent c = .line l ∧ s.valid l t = true) →
      Step S s .other .tau (s.setReq i { s.req i with pc := .over, toCache := m })
  /-- WO: one sector arrives from the cache. /repo/src/engine/engine_wo.c:52-151. -/
  | rdOver (s i c t l) : (s.req i).pc = .over → (s.req i).toCache c t = true →
      (s.req i).ent c = .line l →
      Step S s .other .tau
        (s.setReq i { s.req i with
          res := upd2 (s.req i).res c t (some (s.cache l t))
          toCache := upd2 (s.req i).toCache c t false })
  /-- A read completes; all of its sectors have arrived.  A generic read holding its
  lines for write gets here only if it goes on as pass-through (`cerr`).
  /repo/src/engine/engine_rd.c:26-42, /repo/src/engine/engine_pt.c:21-35,
  /repo/src/engine/engine_wo.c:23-42, /repo/src/engine/engine_wo.c:153-170. -/
  | ret (s i) :
      ((s.req i).pc = .cread ∨
        (s.req i).pc = .oread ∧ (s.req i).eng = .pt ∨
        (s.req i).pc = .oread ∧ (s.req i).eng = .gen ∨
        (s.req i).pc = .oread ∧ (s.req i).eng = .wo ∧ (s.req i).dany = false ∨
        (s.req i).pc = .over ∧ (∀ c t, (s.req i).toCache c t = false)) →
      (∀ c t, (s.req i).has c t = true → (s.req i).res c t ≠ none) →
      Step S s .other (.retR i (s.req i).res) (s.setReq i (s.req i).done)
  /-- A read miss completes; the request goes on with the backfill.
  /repo/src/engine/engine_rd.c:44-74, /repo/src/engine/engine_bf.c:99-104. -/
  | retFill (s i) : (s.req i).pc = .oread → (s.req i).eng = .gen →
      (s.req i).excl = true →
      (∀ c t, (s.req i).has c t = true → (s.req i).res c t ≠ none) →
      Step S s .other (.retR i (s.req i).res)
        (s.setReq i { s.req i with pc := .fill, toCache := (s.req i).has })
  /-- Backfill: one sector reaches the cache. /repo/src/engine/engine_bf.c:86-97. -/
  | fill (s i c t l v) : (s.req i).pc = .fill → (s.req i).toCache c t = true →
      (s.req i).ent c = .line l → (s.req i).res c t = some v →
      Step S s .other .tau
        { s with
          cache := upd2 s.cache l t v
          req := upd s.req i
            { s.req i with toCache := upd2 (s.req i).toCache c t false } }
  /-- Backfill complete: the sectors become valid and the locks are dropped.
  /repo/src/engine/engine_bf.c:42-57, /repo/src/utils/utils_cache_line.h:239-266. -/
  | fillEnd (s i w) : (s.req i).pc = .fill → (∀ c t, (s.req i).toCache c t = false) →
      (∀ l t, w l t = true ↔ s.valid l t = true ∨
        ∃ c, (s.req i).has c t = true ∧ (s.req i).ent c = .line l) →
      Step S s .other .tau
        { s with valid := w, req := upd s.req i (s.req i).done }
  /-- The cleaner takes a line for read and finds it still mapped as expected.
  /repo/src/utils/utils_cleaner.c:230-239, /repo/src/utils/utils_cleaner.c:594-626. -/
  | cgrab (s i c l) : (s.req i).pc = .clean → (s.req i).eng = .cln →
      (s.req i).ent c = .unseen → s.map l = some c →
      (∀ j d, s.holds j d l → (s.req j).excl = false) →
      Step S s .other .tau
        (s.setReq i { s.req i with
          on := upd (s.req i).on c true
          ent := upd (s.req i).ent c (.line l)
          held := upd (s.req i).held c true })
  /-- The line is read from the cache; then the writes to the core are issued: the
  whole line if all sectors are valid and some is dirty, else the dirty sectors.
  /repo/src/utils/utils_cleaner.c:554-592, /repo/src/utils/utils_cleaner.c:449-487,
  /repo/src/metadata/metadata_status.h:215-220.  Reading is one step, the line being
  locked against writers. -/
  | cfire (s i c l m) : (s.req i).pc = .clean → (s.req i).ent c = .line l →
      (s.req i).held c = true → (s.req i).fired c = false →
      (∀ t, m t = true ↔ t < S ∧ (s.dirty l t = true ∨
        (∀ u, u < S → s.valid l u = true) ∧ ∃ u, s.dirty l u = true)) →
      Step S s .other .tau
        (s.setReq i { s.req i with
          fired := upd (s.req i).fired c true
          buf := upd (s.req i).buf c (s.cache l)
          wback := upd (s.req i).wback c m })
  /-- One sector reaches the core. /repo/src/utils/utils_cleaner.c:425-447. -/
  | cwrite (s i c t) : (s.req i).pc = .clean → (s.req i).wback c t = true →
      Step S s (.wback i c t) .tau
        { s with
          core := upd2 s.core c t ((s.req i).buf c t)
          req := upd s.req i
            { s.req i with wback := upd2 (s.req i).wback c t false } }
  /-- All writes of a line completed and the core was flushed: the line becomes
  clean, and its metadata has to be flushed if that changed anything.
  /repo/src/utils/utils_cleaner.c:315-364, /repo/src/utils/utils_cache_line.c:92-132. -/
  | cmark (s i c l n) : (s.req i).pc = .clean → (s.req i).ent c = .line l →
      (s.req i).fired c = true → (s.req i).marked c = false →
      (∀ t, (s.req i).wback c t = false) →
      (n = false → ∀ t, s.dirty l t = false) →
      Step S s .other .tau
        { s with
          dirty := fun k t => if k = l then false else s.dirty k t
          req := upd s.req i
            { s.req i with
              marked := upd (s.req i).marked c true
              need := upd (s.req i).need c n } }
  /-- A line which is not dirty is skipped. /repo/src/engine/engine_common.c:540-560,
  /repo/src/utils/utils_cleaner.c:594-626. -/
  | cskip (s i c l) : (s.req i).pc = .clean → (s.req i).ent c = .line l →
      (s.req i).fired c = false → (∀ t, s.dirty l t = false) →
      Step S s .other .tau
        (s.setReq i { s.req i with marked := upd (s.req i).marked c true
                                   fired := upd (s.req i).fired c true })
  /-- Cleaning is over, the engine goes on; `dirty_any` is not looked up again.  It goes
  on as well if a metadata flush failed in a cleaner request other than the first:
  the error stays in that request.
  /repo/src/engine/engine_common.c:375-398, /repo/src/utils/utils_cleaner.c:188-219,
  /repo/src/utils/utils_cleaner.c:299-313. -/
  | cend (s i) : (s.req i).pc = .clean → (s.req i).eng ≠ .cln →
      (∀ c l, (s.req i).on c = true → (s.req i).ent c = .line l →
        (s.req i).marked c = true) →
      Step S s (.quit i) .tau
        (s.setReq i { s.req i with
          need := fun _ => false
          pc := if (s.req i).eng = .wi then .xfer else .oread
          toCore := if (s.req i).eng = .wi then (s.req i).has else (s.req i).toCore })
  /-- A background cleaner request is over; lines with errors are left as they are.
  /repo/src/utils/utils_cleaner.c:255-264, /repo/src/utils/utils_cleaner.c:299-338. -/
  | cendBg (s i) : (s.req i).pc = .clean → (s.req i).eng = .cln →
      Step S s (.quit i) .tau (s.setReq i (s.req i).done)
  /-- The metadata flush of one line reaches the cache device.
  /repo/src/metadata/metadata_raw.c:542-640. -/
  | flush (s i c l) : (s.req i).ent c = .line l → (s.req i).need c = true →
      Step S s .other .tau
        { s with
          dmap := upd s.dmap l (s.map l)
          ddirty := upd s.ddirty l (s.dirty l)
          req := upd s.req i { s.req i with need := upd (s.req i).need c false } }
  /-- A write goes to the devices.  WB: cache; WT: both; WI: core; second pass of WI:
  none.  /repo/src/engine/engine_wb.c:98-123, /repo/src/engine/engine_wt.c:154-177,
  /repo/src/engine/engine_wi.c:119-155, /repo/src/engine/engine_wi.c:173-176, /repo/src/engine/engine_wi.c:68-76.  WI may
  go ahead with dirty lines, because its information is not refreshed after waiting
  for the lock (/repo/src/engine/engine_wi.c:157-161).  WT with nothing dirty sets the
  valid bits first (`p`), /repo/src/engine/engine_wt.c:159-164. -/
  | goWrite (s i p w) : (s.req i).pc = .look → (s.req i).ready →
      (s.req i).eng.isWr = true →
      (p = true → (s.req i).eng = .wt ∧ s.noDirty (s.req i)) →
      (∀ l t, w l t = true ↔ s.valid l t = true ∨
        p = true ∧ ∃ c, (s.req i).has c t = true ∧ (s.req i).ent c = .line l) →
      Step S s .other .tau
        { s with
          valid := w
          req := upd s.req i
            { s.req i with
              pc := .xfer
              toCache := fun c t => (s.req i).has c t &&
                ((s.req i).eng == .wt || (s.req i).eng == .wb)
              toCore := fun c t => (s.req i).has c t &&
                ((s.req i).eng == .wt || (s.req i).eng == .wi) } }
  /-- One sector reaches the cache. /repo/src/engine/engine_wb.c:98-123,
  /repo/src/engine/engine_wt.c:139-152. -/
  | wCache (s i c t l) : (s.req i).pc = .xfer → (s.req i).toCache c t = true →
      (s.req i).ent c = .line l →
      Step S s .other .tau
        { s with
          cache := upd2 s.cache l t ((s.req i).data c t)
          req := upd s.req i
            { s.req i with toCache := upd2 (s.req i).toCache c t false } }
  /-- One sector reaches the core. /repo/src/engine/engine_wt.c:139-152,
  /repo/src/engine/engine_wi.c:119-155. -/
  | wCore (s i c t) : (s.req i).pc = .xfer → (s.req i).toCore c t = true →
      Step S s .other .tau
        { s with
          core := upd2 s.core c t ((s.req i).data c t)
          req := upd s.req i
            { s.req i with toCore := upd2 (s.req i).toCore c t false } }
  /-- All data transferred: the status bits of one line are updated.  WB: valid and
  dirty; WT: valid and clean; WI: neither (purge).  The metadata has to be flushed if
  a dirty bit changed.  /repo/src/engine/engine_wb.c:25-48,
  /repo/src/engine/engine_wt.c:23-55, /repo/src/engine/engine_wi.c:68-98,
  /repo/src/utils/utils_cache_line.c:45-62, /repo/src/utils/utils_cache_line.c:76-174.
  WT which had nothing dirty has set its bits before; doing it again changes
  nothing. -/
  | update (s i c l n) : (s.req i).pc = .xfer →
      (∀ d t, (s.req i).toCache d t = false) → (∀ d t, (s.req i).toCore d t = false) →
      (s.req i).ent c = .line l → (s.req i).updd c = false →
      (n = false → ∀ t, (s.req i).has c t = true →
        s.dirty l t = ((s.req i).eng == .wb)) →
      Step S s .other .tau
        { s with
          valid := fun k t => if k = l ∧ (s.req i).has c t = true then
            ((s.req i).eng == .wt || (s.req i).eng == .wb) else s.valid k t
          dirty := fun k t => if k = l ∧ (s.req i).has c t = true then
            ((s.req i).eng == .wb) else s.dirty k t
          req := upd s.req i
            { s.req i with
              updd := upd (s.req i).updd c true
              need := upd (s.req i).need c n } }
  /-- Purge left no valid sector and nobody waits for the line: it leaves the
  collision table. /repo/src/utils/utils_cache_line.c:10-43. -/
  | unmap (s i c l) : (s.req i).pc = .xfer →
      ((s.req i).eng = .wi ∨ (s.req i).eng = .wi2) →
      (s.req i).ent c = .line l → (s.req i).updd c = true → (s.req i).gone c = false →
      (∀ t, s.valid l t = false) → (∀ j, j ≠ i → ¬ s.refs j l) →
      Step S s .other .tau
        { s with
          map := upd s.map l none
          req := upd s.req i { s.req i with gone := upd (s.req i).gone c true } }
  /-- First pass of WI over, some line was not mapped: second pass.
  /repo/src/engine/engine_wi.c:20-45. -/
  | pass2 (s i) : (s.req i).pc = .xfer → (s.req i).eng = .wi →
      (∀ d t, (s.req i).toCore d t = false) →
      (∀ c l, (s.req i).on c = true → (s.req i).ent c = .line l →
        (s.req i).updd c = true ∧ (s.req i).need c = false) →
      Step S s .other .tau (s.setReq i ((s.req i).fresh .wi2 .look true))
  /-- A write completes. /repo/src/engine/engine_wb.c:50-60,
  /repo/src/engine/engine_wt.c:57-68, /repo/src/engine/engine_wt.c:88-110,
  /repo/src/engine/engine_wi.c:20-66. -/
  | ack (s i) : (s.req i).pc = .xfer → (s.req i).disc = false →
      (∀ d t, (s.req i).toCache d t = false) → (∀ d t, (s.req i).toCore d t = false) →
      (∀ c l, (s.req i).on c = true → (s.req i).ent c = .line l →
        (s.req i).updd c = true ∧ (s.req i).need c = false) →
      ((s.req i).eng = .wi → ∀ c, (s.req i).on c = true → (s.req i).ent c ≠ .none) →
      Step S s .other (.ackW i) (s.setReq i (s.req i).done)
  /-- A discard is through with the metadata and drops its locks, or could not get them
  and goes on all the same.  If the metadata flush failed before the request itself was
  done, the error is lost. /repo/src/engine/engine_discard.c:75-92,
  /repo/src/engine/engine_discard.c:189-193, /repo/src/engine/engine_discard.c:61-73. -/
  | dnext (s i) : (s.req i).disc = true → (s.req i).eng = .wi2 →
      ((s.req i).pc = .look ∨ (s.req i).pc = .xfer ∧
        (∀ c l, (s.req i).on c = true → (s.req i).ent c = .line l →
          (s.req i).updd c = true)) →
      Step S s (.quit i) .tau
        (s.setReq i { (s.req i).fresh .wi2 .look true with dany := true })
  /-- The core device discards one sector; any value may be read from it now.  No lock
  is held. /repo/src/engine/engine_discard.c:29-37. -/
  | dcore (s i c t v) : (s.req i).disc = true → (s.req i).eng = .wi2 →
      (s.req i).pc = .look → (s.req i).dany = true → (s.req i).has c t = true →
      Step S s .other .tau { s with core := upd2 s.core c t v }
  /-- A discard completes. /repo/src/engine/engine_discard.c:22-27. -/
  | ackD (s i) : (s.req i).disc = true → (s.req i).eng = .wi2 →
      (s.req i).pc = .look → (s.req i).dany = true →
      Step S s .other (.ackW i) (s.setReq i (s.req i).done)
  /-- The metadata of a line reaches the cache device at any time, because a
  neighbour in the same page is flushed or the page is written anyway.
  /repo/src/metadata/metadata_raw.c:542-640. -/
  | persist (s l) :
      Step S s .other .tau
        { s with
          dmap := upd s.dmap l (s.map l)
          ddirty := upd s.ddirty l (s.dirty l) }
  /-- A cache read of a hit failed: the request goes on as pass-through, keeping its
  locks. /repo/src/engine/engine_rd.c:26-42, /repo/src/engine/engine_fast.c:32-51,
  /repo/src/engine/engine_pt.c:162-166, /repo/src/engine/engine_pt.c:45-91.  The engine
  of a request locked for write is still called `gen` here. -/
  | cerr (s i) : (s.req i).pc = .cread →
      Step S s .other .tau
        (s.setReq i { (s.req i).fresh (if (s.req i).excl = true then .gen else .pt) .look
            (s.req i).excl with
          ent := (s.req i).ent, held := (s.req i).held })
  /-- A read completes with an error: its lock, its core read, its overlay, the cleaning
  of its lines or the check after waiting for the lock failed.
  /repo/src/engine/engine_rd.c:205-209, /repo/src/engine/engine_pt.c:21-35,
  /repo/src/engine/engine_pt.c:149-153, /repo/src/engine/engine_wo.c:23-42,
  /repo/src/engine/engine_wo.c:153-170, /repo/src/engine/engine_common.c:375-398,
  /repo/src/engine/engine_common.c:609-642. -/
  | errR (s i) : (s.req i).eng.isRd = true → (s.req i).pc ≠ .free → (s.req i).pc ≠ .fill →
      Step S s (.quit i) (.errR i) (s.setReq i (s.req i).done)
  /-- The core read of a miss failed: the request completes with an error and drops its
  sectors from the cache. /repo/src/engine/engine_rd.c:44-74,
  /repo/src/engine/engine_inv.c:20-58. -/
  | errMiss (s i w d) : (s.req i).pc = .oread → (s.req i).eng = .gen →
      (s.req i).excl = true → (s.req i).purged s.valid w → (s.req i).purged s.dirty d →
      Step S s .other (.errR i)
        { s with valid := w, dirty := d, req := upd s.req i (s.req i).done }
  /-- The backfill failed, or there was no buffer for it: the sectors leave the cache.
  /repo/src/engine/engine_bf.c:59-97, /repo/src/engine/engine_inv.c:20-58. -/
  | errFill (s i w d) : (s.req i).pc = .fill →
      (s.req i).purged s.valid w → (s.req i).purged s.dirty d →
      Step S s .other .tau
        { s with valid := w, dirty := d, req := upd s.req i (s.req i).done }
  /-- A write completes with an error before it reached a device, or a write-invalidate
  write at any time, or any write because its metadata flush failed.
  /repo/src/engine/engine_wt.c:57-68, /repo/src/engine/engine_wt.c:206-210,
  /repo/src/engine/engine_wb.c:50-60, /repo/src/engine/engine_wb.c:172-176,
  /repo/src/engine/engine_wi.c:48-66, /repo/src/engine/engine_wi.c:100-117,
  /repo/src/engine/engine_wi.c:202-206, /repo/src/engine/engine_common.c:375-398,
  /repo/src/engine/engine_common.c:609-642. -/
  | errW (s i) : (s.req i).eng.isWr = true →
      ((s.req i).pc = .look ∨
        ((s.req i).eng = .wi ∨ (s.req i).eng = .wi2) ∧ (s.req i).pc ≠ .free ∨
        (s.req i).pc = .xfer ∧ (∀ c t, (s.req i).toCache c t = false) ∧
          (∀ c t, (s.req i).toCore c t = false) ∧
          (∀ c l, (s.req i).on c = true → (s.req i).ent c = .line l →
            (s.req i).updd c = true)) →
      Step S s (.quit i) (.errW i) (s.setReq i (s.req i).done)
  /-- A device write of WB or the core write of WT failed: the request completes with an
  error and drops its sectors from the cache.  The metadata is not flushed.
  /repo/src/engine/engine_wt.c:88-111, /repo/src/engine/engine_wb.c:79-95,
  /repo/src/engine/engine_inv.c:35-52 (atomic volumes, where it is flushed, are not
  modelled). -/
  | errWr (s i w d) : (s.req i).pc = .xfer →
      ((s.req i).eng = .wt ∨ (s.req i).eng = .wb) → (∀ c, (s.req i).updd c = false) →
      (s.req i).purged s.valid w → (s.req i).purged s.dirty d →
      Step S s (.purge i) (.errW i)
        { s with valid := w, dirty := d, req := upd s.req i (s.req i).done }
  /-- Only the cache write of WT failed: the request completes with success and drops its
  sectors from the cache.  The metadata is not flushed.
  /repo/src/engine/engine_wt.c:88-139, /repo/src/engine/engine_inv.c:35-52 (atomic
  volumes, where it is flushed, are not modelled). -/
  | ackErr (s i w d) : (s.req i).pc = .xfer → (s.req i).eng = .wt →
      (∀ c t, (s.req i).toCore c t = false) → (∀ c, (s.req i).updd c = false) →
      (s.req i).purged s.valid w → (s.req i).purged s.dirty d →
      Step S s (.purge i) (.ackW i)
        { s with valid := w, dirty := d, req := upd s.req i (s.req i).done }
  /-- Dropping sectors after an error left no valid sector in a line nobody uses or
  waits for: it leaves the collision table.  In the code this is part of dropping the
  sectors. /repo/src/utils/utils_cache_line.c:10-43. -/
  | unmapFree (s l) : (∀ t, s.valid l t = false) → (∀ j, ¬ s.refs j l) →
      Step S s .other .tau { s with map := upd s.map l none }
  /-- Power fails; all requests and all state in RAM are lost.  The next start
  rebuilds the mapping from the lines having dirty sectors on the cache device.
  /repo/src/mngt/ocf_mngt_cache.c:558-639. -/
  | crash (s m) :
      (∀ l, (∃ t, s.ddirty l t = true) → m l = s.dmap l) →
      (∀ l, (∀ t, s.ddirty l t = false) → m l = none) →
      Step S s .other .crash
        { s with
          map := m, valid := s.ddirty, dirty := s.ddirty
          req := fun i => (s.req i).done }

end Verif.Engine
