/-!
# Flushing a core or the whole cache

Model of the flush operations of the management interface
(`/repo/src/mngt/ocf_mngt_flush.c`).  The operation first waits until no request that can make
sectors dirty is left, then collects the dirty cache lines of the cores it is going to flush
into tables (one "flush container" per core), and cleans every table in portions.  User requests
go on all the time, in modes which do not create dirty sectors.

Simplifications, for the whole file:
* the counters `dirty_clines` are not stored: a read of one is the number of lines of the core
  with a dirty sector (that this is what the counter holds is theorem `Verif.Account.dirty_exact`);
* a sector is cleaned in one step, which writes its data to the core volume and clears the dirty
  bit (the cleaner itself is modelled in `Verif.Model.Cleaner`); the flush only sees when the
  cleaner reports a portion as finished;
* the exclusive metadata lock is ignored while the tables are filled, i.e. user requests may run
  between any two lines, not just at every 131072nd one;
* `core->flushed`, `flush_in_progress` and the log messages are left out (progress reports).
-/

namespace Verif.FlushMngt

/-- A cache line: the core line it holds (`None` if it is free), its dirty sectors and the data
on the cache device.  `/repo/src/metadata/metadata_core.c:13-30` (core line),
`/repo/src/metadata/metadata_status.h:65-74` (status bits).  Valid bits are left out: a dirty
sector is valid (C03). -/
structure Line where
  owner : Option (Nat × Nat)
  dirty : Nat → Bool
  data : Nat → Int

/-- The cache lines, the core volumes (core, core line, sector) and, as a history variable, the
value last written to each sector by a user.  No code, this is the environment of
`/repo/src/mngt/ocf_mngt_flush.c:1-943`. -/
structure Mem where
  lines : Nat → Line
  core : Nat → Nat → Nat → Int
  latest : Nat → Nat → Nat → Int

/-- The operation: `_ocf_mngt_core_flush` or `_ocf_mngt_cache_flush`
(`/repo/src/mngt/ocf_mngt_flush.c:620-627`, `/repo/src/mngt/ocf_mngt_flush.c:738-751`). -/
inductive Op where
  | core (c : Nat)
  | all
  deriving DecidableEq

/-- Constants during a flush: number of cache lines (`collision_table_entries`), sectors in a
line, line size, the added cores in the order of `for_each_core`
(`/repo/src/ocf_cache_priv.h:158-160`), `core_count` and the operation. -/
structure Cfg where
  entries : Nat
  sectors : Nat
  lineSize : Nat
  cores : List Nat
  coreCount : Nat
  op : Op

/-- `metadata_test_dirty`: some sector of the line is dirty,
`/repo/src/metadata/metadata_status.h:65-74`. -/
def anyDirty (w : Nat) (l : Line) : Bool := (List.range w).any l.dirty

/-- Line `i` belongs to core `c` and has a dirty sector; the test of
`/repo/src/mngt/ocf_mngt_flush.c:172-177`. -/
def isDirty (cfg : Cfg) (m : Mem) (c i : Nat) : Bool :=
  match (m.lines i).owner with
  | some (d, _) => decide (d = c) && anyDirty cfg.sectors (m.lines i)
  | none => false

/-- A read of `core->runtime_meta->dirty_clines` (`/repo/src/mngt/ocf_mngt_flush.c:156`,
`:249`, `:363`, `:389`): the number of dirty lines of the core, see the head of the file. -/
def dirtyCount (cfg : Cfg) (m : Mem) (c : Nat) : Nat :=
  (List.range cfg.entries).countP (isDirty cfg m c)

/-- Write one element of an array.  Used for the tables of
`/repo/src/mngt/ocf_mngt_flush.c:244-250`. -/
def upd {α : Type} (f : Nat → α) (i : Nat) (v : α) (k : Nat) : α := if k = i then v else f k

/-- State of a flush container.  `queued`: its request is in the queue; `cleaning off`: the
cleaner works on a portion which starts at `off`; `ended e`: the cleaner reported the error `e`
for the portion; `checked`: the error and the interruption have been recorded; `closing`: about
to call `fc->end`; `closed`: has called it.
`/repo/src/mngt/ocf_mngt_flush.c:337-371`, `/repo/src/mngt/ocf_mngt_flush.c:440-495`. -/
inductive CSt where
  | idle
  | queued
  | cleaning (off : Nat)
  | ended (e : Int)
  | checked
  | closing
  | closed
  deriving DecidableEq

/-- `struct flush_container`, `/repo/src/utils/utils_cleaner.h:62-79`.  `data` is `flush_data`
(cache lines only: the cleaner takes the core line from the collision table,
`/repo/src/utils/utils_cleaner.c:666-704`).  The tick counts are left out. -/
structure Cont where
  core : Nat
  data : List Nat
  count : Nat
  iter : Nat
  portion : Nat
  st : CSt
  deriving DecidableEq

/-- Progress of the operation: waiting for the dirty requests
(`/repo/src/mngt/ocf_mngt_flush.c:85-104`), filling the tables (`:144-325`), starting the
containers (`:518-524`), running, all containers done and the pipeline goes on (`:590-615`,
`:721-736`), completion called (`:629-661`). -/
inductive Phase where
  | begin
  | drain
  | scan
  | start
  | run
  | flushed (e : Int)
  | finished (e : Int)
  deriving DecidableEq

/-- The completion has been called, `/repo/src/mngt/ocf_mngt_flush.c:643-658`. -/
def Phase.isFinished : Phase → Bool
  | .finished _ => true
  | _ => false

/-- Local variables of `_ocf_mngt_get_flush_containers` (`/repo/src/mngt/ocf_mngt_flush.c:214-223`):
`rev` is `core_revmap`, `core` and `count` the fields of `fc[j]`, `tab` the arrays
`fc[j].flush_data` up to `fc[j].iter`. -/
structure Tabs where
  rev : Nat → Nat
  core : Nat → Nat
  count : Nat → Nat
  tab : Nat → List Nat
  j : Nat
  total : Nat
  line : Nat
  found : Nat

/-- Freshly allocated (zeroed) tables, `/repo/src/mngt/ocf_mngt_flush.c:221-242`. -/
def Tabs.zero : Tabs :=
  { rev := fun _ => 0, core := fun _ => 0, count := fun _ => 0, tab := fun _ => []
    j := 0, total := 0, line := 0, found := 0 }

/-- The whole state: memory, phase, the reference counter `refcnt.dirty` (`writers`, `frozen`),
the tables, the containers, `fcs.count`, `fcs.error`, `fcs.interrupt_seen`,
`cache->flushing_interrupted`, next container to be started, number of times the containers were
reported as complete, whether an allocation failed or the cleaner reported an error (history
variable), and whether an assertion of the code failed (or entries of a table were
used which had not been written).
`/repo/src/mngt/ocf_mngt_flush.c:25-83` (context). -/
structure St where
  mem : Mem
  ph : Phase
  writers : Nat
  frozen : Bool
  tabs : Tabs
  conts : List Cont
  next : Nat
  refs : Nat
  err : Int
  seen : Bool
  interrupted : Bool
  completions : Nat
  failed : Bool
  bug : Bool

/-- The loop over the cores, `/repo/src/mngt/ocf_mngt_flush.c:244-265`.  A core without dirty
lines leaves `j` as it is, so that the next core gets the same container.  The allocations of
`flush_data` may fail, see `Step.noMem`. -/
def setupCores (n : Nat) (cnt : Nat → Nat) : List Nat → Tabs → Tabs
  | [], s => s
  | c :: cs, s =>
    let s1 := { s with
      core := upd s.core s.j c
      rev := upd s.rev c s.j
      count := upd s.count s.j (cnt c)
      total := s.total + cnt c }
    if cnt c = 0 then setupCores n cnt cs s1
    else
      let s2 := { s1 with j := s.j + 1 }
      if s2.j = n then s2 else setupCores n cnt cs s2

/-- Preparation of the tables: `/repo/src/mngt/ocf_mngt_flush.c:225-265` for the cache,
`/repo/src/mngt/ocf_mngt_flush.c:154-167` for a single core (one container with room for
`dirty_total` entries). -/
def setup (cfg : Cfg) (m : Mem) : Tabs :=
  match cfg.op with
  | .core c =>
    { Tabs.zero with core := upd (fun _ => 0) 0 c, count := upd (fun _ => 0) 0 (dirtyCount cfg m c)
                     total := dirtyCount cfg m c }
  | .all => setupCores cfg.coreCount (dirtyCount cfg m) cfg.cores Tabs.zero

/-- Number of containers: 1 for a core (`/repo/src/mngt/ocf_mngt_flush.c:559`), `core_count` for
the cache (`/repo/src/mngt/ocf_mngt_flush.c:227`). -/
def fcnum (cfg : Cfg) : Nat :=
  match cfg.op with
  | .core _ => 1
  | .all => cfg.coreCount

/-- Whether the table loop takes the line: `/repo/src/mngt/ocf_mngt_flush.c:175-177` (only lines
of the core) and `/repo/src/mngt/ocf_mngt_flush.c:275-276` (lines of any core). -/
def takes (cfg : Cfg) (m : Mem) (i : Nat) : Option Nat :=
  match (m.lines i).owner with
  | some (d, _) =>
    match cfg.op with
    | .core c => if d = c && anyDirty cfg.sectors (m.lines i) then some d else none
    | .all => if anyDirty cfg.sectors (m.lines i) then some d else none
  | none => none

/-- The containers after the tables are filled: `/repo/src/mngt/ocf_mngt_flush.c:203` and
`:556-557` for a core (`count` is the number found), `/repo/src/mngt/ocf_mngt_flush.c:300-309`
for the cache. -/
def mkConts (cfg : Cfg) (t : Tabs) : List Cont :=
  (List.range (fcnum cfg)).map fun j =>
    { core := t.core j
      data := t.tab j
      count := match cfg.op with
        | .core _ => t.found
        | .all => if t.total = t.found then t.count j else (t.tab j).length
      iter := 0, portion := 0, st := .idle }

/-- End of the table loop.  Only the containers are made here; sorting follows
(`/repo/src/mngt/ocf_mngt_flush.c:300-310`). -/
def scanEnd (cfg : Cfg) (s : St) : St :=
  { s with conts := mkConts cfg s.tabs, ph := .start, next := 0, refs := 1, err := 0 }

/-- One round of the table loop: `/repo/src/mngt/ocf_mngt_flush.c:169-197` for a core,
`/repo/src/mngt/ocf_mngt_flush.c:272-298` for the cache.  Writing more entries than there is room
for is `ENV_BUG_ON` in the latter and memory corruption in the former; both set `bug`. -/
def scanLine (cfg : Cfg) (s : St) : St :=
  let t := s.tabs
  if t.line < cfg.entries then
    match takes cfg s.mem t.line with
    | some c =>
      let k := t.rev c
      if (t.tab k).length ≥ t.count k then { s with bug := true }
      else
        let t1 := { t with tab := upd t.tab k (t.tab k ++ [t.line]), found := t.found + 1,
                           line := t.line + 1 }
        if t1.found = t1.total then scanEnd cfg { s with tabs := t1 }
        else { s with tabs := t1 }
    | none => { s with tabs := { t with line := t.line + 1 } }
  else scanEnd cfg s

/-- Start of the table loop.  Without dirty lines it is skipped: a core flush then has one empty
container (`/repo/src/mngt/ocf_mngt_flush.c:157-161`), a cache flush has none and completes at once
(`/repo/src/mngt/ocf_mngt_flush.c:267-270` and `:504-507`). -/
def scanBegin (cfg : Cfg) (s : St) : St :=
  let t := setup cfg s.mem
  if t.total = 0 then
    match cfg.op with
    | .core _ => scanEnd cfg { s with tabs := t }
    | .all => { s with tabs := t, ph := .flushed 0, completions := s.completions + 1 }
  else { s with tabs := t, ph := .scan }

/-- `env_atomic_cmpxchg(&fsc->error, 0, e)`: the first error is kept,
`/repo/src/mngt/ocf_mngt_flush.c:350`, `:358-359`, `:478`. -/
def record (err e : Int) : Int := if err = 0 then e else err

/-- `_ocf_flush_container_complete`: the last one reports the error,
`/repo/src/mngt/ocf_mngt_flush.c:482-495`. -/
def dropRef (s : St) : St :=
  if s.refs - 1 ≠ 0 then { s with refs := s.refs - 1 }
  else { s with refs := s.refs - 1, ph := .flushed s.err, completions := s.completions + 1 }

/-- Lower bound of a portion, `OCF_MNG_FLUSH_MIN`, `/repo/src/mngt/ocf_mngt_flush.c:378`. -/
def flushMin (lineSize : Nat) : Nat := 4 * 1048576 / lineSize

/-- Upper bound of a portion, `OCF_MNG_FLUSH_MAX`, `/repo/src/mngt/ocf_mngt_flush.c:379`. -/
def flushMax (lineSize : Nat) : Nat := 100 * 1048576 / lineSize

/-- The size of the next portion from the previous one and the time passed,
`/repo/src/mngt/ocf_mngt_flush.c:397-408`. -/
def nextPortion (lineSize prev msecs : Nat) : Nat :=
  let div := if msecs = 0 then 1 else msecs
  let p := prev * 1000 / div
  let p := p / 1024 * 1024
  let p := min p (flushMax lineSize)
  max p (flushMin lineSize)

/-- Starting one container, `/repo/src/mngt/ocf_mngt_flush.c:518-524` and
`/repo/src/mngt/ocf_mngt_flush.c:440-480`; `memOk` tells if the request could be allocated
(`OCF_ERR_NO_MEM` is 1000002 here; the code passes it with a positive sign). -/
def startOne (cfg : Cfg) (s : St) (memOk : Bool) : St :=
  match s.conts[s.next]? with
  | some fc =>
    if fc.count = 0 then { s with next := s.next + 1 }
    else if memOk then
      { s with
        conts := s.conts.set s.next { fc with st := .queued, portion := flushMin cfg.lineSize }
        refs := s.refs + 1, next := s.next + 1 }
    else
      { s with
        conts := s.conts.set s.next { fc with st := .closing }
        refs := s.refs + 1, next := s.next + 1, err := record s.err 1000002, failed := true }
  | none => dropRef { s with ph := .run }

/-- `_ocf_mngt_flush_portion`, `/repo/src/mngt/ocf_mngt_flush.c:381-438`. -/
def flushPortion (cfg : Cfg) (s : St) (k : Nat) (fc : Cont) (msecs : Nat) : St :=
  let dirty := dirtyCount cfg s.mem fc.core
  if dirty = 0 then
    { s with conts := s.conts.set k { fc with iter := fc.count, st := .ended 0 } }
  else
    let portion := nextPortion cfg.lineSize fc.portion msecs
    let curr := min dirty portion
    if curr = 0 then { s with bug := true }
    else if curr + fc.iter > fc.count then { s with bug := true }
    else
      { s with
        conts := s.conts.set k
          { fc with portion := portion, iter := fc.iter + curr, st := .cleaning fc.iter } }

/-- First part of `_ocf_mngt_flush_portion_end`: error and interruption are recorded,
`/repo/src/mngt/ocf_mngt_flush.c:348-361`.  `-OCF_ERR_FLUSHING_INTERRUPTED` is -1000018 here. -/
def portionEnd (s : St) (k : Nat) (fc : Cont) (e : Int) : St :=
  let err := record s.err e
  let first := s.interrupted && !s.seen
  { s with
    err := if first then record err (-1000018) else err
    seen := s.seen || s.interrupted
    conts := s.conts.set k { fc with st := .checked } }

/-- Second part: end the container or queue it again, `/repo/src/mngt/ocf_mngt_flush.c:363-370`. -/
def portionNext (cfg : Cfg) (s : St) (k : Nat) (fc : Cont) : St :=
  if dirtyCount cfg s.mem fc.core = 0 ∨ s.err ≠ 0 then
    { s with conts := s.conts.set k { fc with st := .closing } }
  else { s with conts := s.conts.set k { fc with st := .queued } }

/-- `fc->end(context)`, `/repo/src/mngt/ocf_mngt_flush.c:366` and `:479`. -/
def closeCont (s : St) (k : Nat) (fc : Cont) : St :=
  dropRef { s with conts := s.conts.set k { fc with st := .closed } }

/-- Change line `i`.  Helper of the environment steps, no code of its own
(`/repo/src/mngt/ocf_mngt_flush.c` does not change lines itself). -/
def Mem.setLine (m : Mem) (i : Nat) (l : Line) : Mem := { m with lines := upd m.lines i l }

/-- Change one sector of a core volume, as the volume I/O of
`/repo/src/utils/utils_cleaner.c:425-447` does. -/
def upd3 (f : Nat → Nat → Nat → Int) (c k t : Nat) (v : Int) : Nat → Nat → Nat → Int :=
  fun c' k' t' => if c' = c ∧ k' = k ∧ t' = t then v else f c' k' t'

/-- What other requests do to memory; none of these steps makes a sector dirty.  The
code of each is cited below. -/
inductive MemStep (cfg : Cfg) : Mem → Mem → Prop where
  /-- A sector is cleaned: `/repo/src/utils/utils_cleaner.c:425-490` (data) and
  `/repo/src/utils/utils_cleaner.c:315-364` (dirty bit).  By the flush or by any other run of
  the cleaner. -/
  | clean {m} (i c k t) : i < cfg.entries → t < cfg.sectors → (m.lines i).owner = some (c, k) →
      (m.lines i).dirty t = true →
      MemStep cfg m
        { m with
          lines := upd m.lines i
            { m.lines i with dirty := upd (m.lines i).dirty t false }
          core := upd3 m.core c k t ((m.lines i).data t) }
  /-- A write of a sector which is cached: to the core, and to the cache or the sector is
  invalidated (`v'` is what the cache device holds then): `/repo/src/engine/engine_wt.c:23-55`,
  `/repo/src/engine/engine_wi.c:68-155`. -/
  | writeHit {m} (i c k t v v') : i < cfg.entries → t < cfg.sectors →
      (m.lines i).owner = some (c, k) →
      MemStep cfg m
        { lines := upd m.lines i
            { m.lines i with dirty := upd (m.lines i).dirty t false, data := upd (m.lines i).data t v' }
          core := upd3 m.core c k t v
          latest := upd3 m.latest c k t v }
  /-- A write of a sector which is not cached, `/repo/src/engine/engine_wi.c:119-155`,
  `/repo/src/engine/engine_pt.c:37-43`. -/
  | writeMiss {m} (c k t v) : (∀ i, i < cfg.entries → (m.lines i).owner ≠ some (c, k)) →
      MemStep cfg m
        { m with core := upd3 m.core c k t v, latest := upd3 m.latest c k t v }
  /-- A line without dirty sectors is freed, evicted, or mapped to a core line which is not
  cached yet: `/repo/src/engine/engine_common.c:310-329`, `/repo/src/ocf_lru.c:654-671`. -/
  | remap {m} (i l) : i < cfg.entries → anyDirty cfg.sectors (m.lines i) = false →
      (∀ t, t < cfg.sectors → l.dirty t = false) →
      (∀ o, l.owner = some o → o.1 ∈ cfg.cores ∧
        ∀ j, j < cfg.entries → j ≠ i → (m.lines j).owner ≠ some o) →
      MemStep cfg m (m.setLine i l)
  /-- Data of a sector that is not dirty is read from the core into the cache,
  `/repo/src/engine/engine_bf.c:42-104`. -/
  | fill {m} (i t v) : i < cfg.entries → (m.lines i).dirty t = false →
      MemStep cfg m (m.setLine i { m.lines i with data := upd (m.lines i).data t v })

/-- The lines of a portion of a container, `/repo/src/mngt/ocf_mngt_flush.c:421-425`. -/
def portionLines (fc : Cont) (off : Nat) : List Nat := (fc.data.drop off).take (fc.iter - off)

/-- One step of the system.  `honest` tells if the cleaner may report a portion as finished
without an error only when the lines of the portion are clean.  The program is
`/repo/src/mngt/ocf_mngt_flush.c:85-661`. -/
inductive Step (cfg : Cfg) (honest : Bool) : St → St → Prop where
  /-- A step of another request which makes no sector dirty (cited at `MemStep`). -/
  | mem {s} (m) : s.ph.isFinished = false → MemStep cfg s.mem m → Step cfg honest s { s with mem := m }
  /-- A write-back request takes the reference, `/repo/src/ocf_request.c:410-414`. -/
  | acquire {s} : s.ph.isFinished = false → s.frozen = false →
      Step cfg honest s { s with writers := s.writers + 1 }
  /-- It writes a sector to the cache only, `/repo/src/engine/engine_wb.c:25-48`. -/
  | dirty {s} (i c k t v) : s.ph.isFinished = false → 0 < s.writers → i < cfg.entries →
      t < cfg.sectors → (s.mem.lines i).owner = some (c, k) →
      Step cfg honest s { s with mem :=
        { s.mem with
          lines := upd s.mem.lines i
            { s.mem.lines i with dirty := upd (s.mem.lines i).dirty t true
                                 data := upd (s.mem.lines i).data t v }
          latest := upd3 s.mem.latest c k t v } }
  /-- It completes and drops the reference, `/repo/src/ocf_core.c:171-178`. -/
  | release {s} : 0 < s.writers → Step cfg honest s { s with writers := s.writers - 1 }
  /-- Freeze, `/repo/src/mngt/ocf_mngt_flush.c:97-100`. -/
  | freeze {s} : s.ph = .begin → Step cfg honest s { s with ph := .drain, frozen := true }
  /-- The flush mutex is taken by another flush, `/repo/src/mngt/ocf_mngt_flush.c:94-96`. -/
  | busy {s} : s.ph = .begin → Step cfg honest s { s with ph := .finished (-1000017) }
  /-- The counter is zero: the next pipeline step, `/repo/src/mngt/ocf_mngt_flush.c:102-103`;
  it clears the interruption (`:625`, `:749`) and starts to fill the tables. -/
  | zero {s} : s.ph = .drain → s.writers = 0 →
      Step cfg honest s (scanBegin cfg { s with interrupted := false })
  /-- The tables cannot be allocated: `/repo/src/mngt/ocf_mngt_flush.c:540-554`, `:579-585`. -/
  | noMem {s} : s.ph = .drain → s.writers = 0 →
      Step cfg honest s { s with interrupted := false, ph := .flushed (-1000002),
                                 completions := s.completions + 1, failed := true }
  /-- One more line of the table loop, `/repo/src/mngt/ocf_mngt_flush.c:272-298`. -/
  | scan {s} : s.ph = .scan → Step cfg honest s (scanLine cfg s)
  /-- `ocf_cleaner_sort_flush_containers` (`/repo/src/utils/utils_cleaner.c:828-843`) sorts the
  first `count` entries of the table, here: any permutation of the entries.  If `count` were not
  the number of entries written, entries with random contents would get in. -/
  | sort {s} (k fc d) : s.ph = .start → s.next = 0 → s.conts[k]? = some fc →
      fc.data.Perm d →
      Step cfg honest s
        (if fc.count = fc.data.length then
          { s with conts := s.conts.set k { fc with data := d } }
         else { s with bug := true })
  /-- The loop over the containers, `/repo/src/mngt/ocf_mngt_flush.c:518-526`. -/
  | start {s} (memOk) : s.ph = .start → Step cfg honest s (startOne cfg s memOk)
  /-- The request of a container runs, `/repo/src/mngt/ocf_mngt_flush.c:428-438`. -/
  | portion {s} (k fc msecs) : s.conts[k]? = some fc → fc.st = .queued →
      Step cfg honest s (flushPortion cfg s k fc msecs)
  /-- The cleaner completes the portion, `/repo/src/utils/utils_cleaner.c:177-209`. -/
  | cleaned {s} (k fc off e) : s.conts[k]? = some fc → fc.st = .cleaning off →
      (honest = true → e = 0 → ∀ i ∈ portionLines fc off, isDirty cfg s.mem fc.core i = false) →
      Step cfg honest s { s with conts := s.conts.set k { fc with st := .ended e }
                                 failed := s.failed || decide (e ≠ 0) }
  /-- The completion of the portion runs, `/repo/src/mngt/ocf_mngt_flush.c:337-361`. -/
  | ended {s} (k fc e) : s.conts[k]? = some fc → fc.st = .ended e →
      Step cfg honest s (portionEnd s k fc e)
  /-- Its second part, `/repo/src/mngt/ocf_mngt_flush.c:363-370`. -/
  | next {s} (k fc) : s.conts[k]? = some fc → fc.st = .checked →
      Step cfg honest s (portionNext cfg s k fc)
  /-- The container is done, `/repo/src/mngt/ocf_mngt_flush.c:366`. -/
  | close {s} (k fc) : s.conts[k]? = some fc → fc.st = .closing →
      Step cfg honest s (closeCont s k fc)
  /-- `ocf_mngt_cache_flush_interrupt`, `/repo/src/mngt/ocf_mngt_flush.c:934-943`. -/
  | interrupt {s} : Step cfg honest s { s with interrupted := true }
  /-- The pipeline ends and the completion of the user is called,
  `/repo/src/mngt/ocf_mngt_flush.c:629-661`.  The model stops here. -/
  | finish {s} (e) : s.ph = .flushed e →
      Step cfg honest s { s with ph := .finished e, frozen := false }

end Verif.FlushMngt
