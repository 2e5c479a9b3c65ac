import Verif.Lemma.Common

/-!
Adding a core to a cache, attaching a core that is inactive, detaching and removing a core, loading the
cores named by a superblock, and giving them up at the stop of the cache:
`/repo/src/mngt/ocf_mngt_core.c`, `/repo/src/mngt/ocf_mngt_common.c`, `/repo/src/mngt/ocf_mngt_cache.c`, with
the life of a volume of `/repo/src/ocf_volume.c`.
-/

namespace Verif.CoreMngt

/-- A volume, `struct ocf_volume`, `/repo/src/ocf_volume_priv.h:24-40`: whether its `type` is set, whether its
`priv` is allocated, and `opened`. -/
structure Vol where
  typ : Bool
  priv : Bool
  opened : Bool
deriving DecidableEq, Repr

/-- How `ocf_volume_init` may end, `/repo/src/ocf_volume.c:90-166`: well; with no type or a bad uuid (97-101);
without memory for `priv` (104-106); later, giving `priv` back (115-117, 126-150, 154-165). -/
inductive InitR
  | ok
  | noType
  | noMem
  | late
deriving DecidableEq, Repr

/-- `ocf_volume_init`, `/repo/src/ocf_volume.c:90-166`: it looks at nothing the volume had before. -/
def Vol.init (v : Vol) : InitR → Vol
  | .ok => ⟨true, true, false⟩
  | .noType => v
  | .noMem => { v with priv := false }
  | .late => ⟨true, false, false⟩

/-- The `priv` that `ocf_volume_init` overwrites without freeing it, `/repo/src/ocf_volume.c:104`. -/
def Vol.lost (v : Vol) (r : InitR) : Nat := if r ≠ .noType ∧ v.priv = true then 1 else 0

/-- `ocf_volume_deinit`, `/repo/src/ocf_volume.c:168-185`. -/
def Vol.deinit (v : Vol) : Vol := { v with typ := false, priv := false }

/-- `ocf_volume_close` once nothing uses the volume, `/repo/src/ocf_volume.c:472-490`; that `type` is followed
first (476) is for the callers below. -/
def Vol.close (v : Vol) : Vol := { v with opened := false }

/-- A place for a core, `struct ocf_core`, `/repo/src/ocf_core_priv.h:80-101`, with its `conf_meta`,
`/repo/src/ocf_core_priv.h:30-58`: name and uuid (numbers here), `valid`, its bit in `valid_core_bitmap`
(`/repo/src/metadata/metadata_superblock.h:45-46`), `added`, `opened`, `has_volume`, the core's volume and the
front volume, whether `counters` and `seq_cutoff` are allocated, whether the cleaning policy has the core.
Not in the code: `data`, the cache has mapped lines with data that the core does not have;
`io`, the requests that hold a reference of the front volume (`/repo/src/ocf_io.c:86`, `138`). -/
structure Slot where
  name : Nat
  uuid : Nat
  valid : Bool
  bit : Bool
  added : Bool
  opened : Bool
  hasVol : Bool
  vol : Vol
  front : Vol
  counters : Bool
  cutoff : Bool
  cleaning : Bool
  data : Bool
  io : Nat
deriving DecidableEq, Repr

/-- The place of no core as the zeroed allocation of the cache leaves it, `/repo/src/mngt/ocf_mngt_cache.c:850-862`. -/
def Slot.empty : Slot :=
  { name := 0, uuid := 0, valid := false, bit := false, added := false, opened := false,
    hasVol := false, vol := ⟨false, false, false⟩, front := ⟨false, false, false⟩,
    counters := false, cutoff := false, cleaning := false, data := false, io := 0 }

/-- The operations of which a result is told, through `OCF_CMPL_RET` or the `cmpl` of a context,
`/repo/src/mngt/ocf_mngt_core.c:540`, `651`, `836`, `/repo/src/mngt/ocf_mngt_cache.c:2060`. -/
inductive Op
  | add
  | attach
  | remove
  | detach
  | load
deriving DecidableEq, Repr

/-- Where the operation is that has the management lock. `rmBody k`: between
`_ocf_mngt_cache_remove_core_mapping` and `_ocf_mngt_cache_remove_core`
(`/repo/src/mngt/ocf_mngt_core.c:742-747`); `rmClose k`: in the latter, waiting in `ocf_volume_close` of the front
volume; `rmFlush k`: waiting for the superblock to be written (`/repo/src/mngt/ocf_mngt_core.c:713`);
`dtClose k`: in `_ocf_mngt_cache_detach_core`, waiting in `ocf_volume_close` of the front volume
(`/repo/src/mngt/ocf_mngt_core.c:807`); `stop j no`: in `_ocf_mngt_cache_stop_remove_cores` before core `j`
with `no` to go (`/repo/src/mngt/ocf_mngt_cache.c:2171-2184`), `stopClose j no` waiting for its front volume;
`stopped`: after it; `failed`: after a load that failed; `dead`: a NULL pointer was followed. -/
inductive Pend
  | idle
  | rmBody (k : Nat)
  | rmClose (k : Nat)
  | rmFlush (k : Nat)
  | dtClose (k : Nat)
  | stop (j no : Nat)
  | stopClose (j no : Nat)
  | stopped
  | failed
  | dead
deriving DecidableEq, Repr

/-- A cache, `struct ocf_cache`, `/repo/src/ocf_cache_priv.h:55-150`: its places for cores, `core_count`
(`/repo/src/metadata/metadata_superblock.h:43`), `ocf_core_inactive_count`, the bit
`ocf_cache_state_incomplete` of `cache_state`, whether a cache device is attached; `sb` is what the
superblock on the device says of each place, the name and uuid of its core if any. Counts are integers here.
Not in the code: `pend`; `told`, the results told; `leaked`, allocations overwritten; `crash`, a NULL
pointer was followed; `uaf`, freed memory was used; and what happened so far: `fe`, an attach of a core failed in
its last step; `li`, a load left a core inactive; `busy`, a core was removed with I/O under way;
`stale`, an operation failed when or after it wrote the superblock, and no write succeeded since. -/
structure St where
  slots : List Slot
  count : Int
  inactive : Int
  incomplete : Bool
  attached : Bool
  sb : List (Option (Nat × Nat))
  pend : Pend
  told : List (Op × Option Nat × Bool)
  leaked : Nat
  crash : Bool
  uaf : Bool
  fe : Bool
  li : Bool
  busy : Bool
  stale : Bool
deriving DecidableEq, Repr

/-- What the superblock says of a core, `/repo/src/ocf_core_priv.h:21-26`,
`30-58`. -/
def Slot.meta (sl : Slot) : Option (Nat × Nat) := if sl.valid then some (sl.name, sl.uuid) else none

/-- What a write of the superblock puts on the device, `ocf_metadata_flush_superblock`,
`/repo/src/metadata/metadata_superblock.c:540-565`. -/
def image (l : List Slot) : List (Option (Nat × Nat)) := l.map Slot.meta

/-- How a write of the superblock ends, `ocf_metadata_flush_superblock_finish`,
`/repo/src/metadata/metadata_superblock.c:469-488`: well, or with an error, with the device changed or not. -/
inductive FlushR
  | ok
  | err (written : Bool)
deriving DecidableEq, Repr

/-- The device after a write of the superblock, `/repo/src/metadata/metadata_superblock.c:540-565`. -/
def FlushR.dev (r : FlushR) (old new : List (Option (Nat × Nat))) : List (Option (Nat × Nat)) :=
  match r with
  | .ok => new
  | .err w => if w then new else old

/-- `_ocf_mngt_find_first_free_core`, `/repo/src/mngt/ocf_mngt_core.c:176-199`, with the bound check of
`ocf_cache_get_core`, `/repo/src/ocf_cache_priv.h:146-153`: the least free place but 0, else 0 if that is free. -/
def findFree (l : List Slot) : Option Nat :=
  match l.tail.findIdx? (fun sl => !sl.bit) with
  | some j => some (j + 1)
  | none =>
    match l with
    | [] => none
    | sl :: _ => if sl.bit then none else some 0

/-- `ocf_mngt_core_init_front_volume`, `/repo/src/mngt/ocf_mngt_core.c:218-244`: `ro` is the result of
`ocf_volume_open`. -/
def frontInit (f : Vol) (ri : InitR) (ro : Bool) : Bool × Vol :=
  match ri with
  | .ok => if ro then (true, { f.init .ok with opened := true }) else (false, (f.init .ok).deinit)
  | r => (false, f.init r)

/-! ### Adding a core -/

/-- What is asked of `ocf_mngt_cache_add_core` and how the calls it makes go,
`/repo/src/mngt/ocf_mngt_core.c:367-521`. -/
structure AddIn where
  name : Nat
  uuid : Nat
  nameOk : Bool
  uuidOk : Bool
  volInit : InitR
  metaOk : Bool
  volOpen : Bool
  lenOk : Bool
  cleanOk : Bool
  cutoffOk : Bool
  countersOk : Bool
  seqOk : Bool
  flush : FlushR
  frontInit : InitR
  frontOpen : Bool
deriving DecidableEq, Repr

/-- `struct ocf_cache_add_core_context`, `/repo/src/mngt/ocf_mngt_core.c:106-122`: the place, the count of cores and
the flags; `leaked` as in `St`. -/
structure Ctx where
  slot : Slot
  count : Int
  leaked : Nat
  uuidSet : Bool
  volInited : Bool
  volOpened : Bool
  cleanAdded : Bool
  counters : Bool
  cutoff : Bool
deriving DecidableEq, Repr

/-- `OCF_PL_FINISH_RET` leaves the function with an error, else the next lines run,
`/repo/src/utils/utils_pipeline.h:186-189`. -/
def andThen (f g : Ctx → Bool × Ctx) (c : Ctx) : Bool × Ctx :=
  if (f c).1 then g (f c).2 else f c

/-- `ocf_mngt_core_set_name`, `/repo/src/mngt/ocf_mngt_core.c:388-390`. -/
def stName (i : AddIn) (c : Ctx) : Bool × Ctx :=
  if i.nameOk then (true, { c with slot := { c.slot with name := i.name } }) else (false, c)

/-- `ocf_mngt_core_set_uuid_metadata`, `/repo/src/mngt/ocf_mngt_core.c:392-397`. -/
def stUuid (i : AddIn) (c : Ctx) : Bool × Ctx :=
  if i.uuidOk then (true, { c with slot := { c.slot with uuid := i.uuid }, uuidSet := true })
  else (false, c)

/-- The type and `ocf_volume_init`, `/repo/src/mngt/ocf_mngt_core.c:399-408`. -/
def stVol (i : AddIn) (c : Ctx) : Bool × Ctx :=
  if i.volInit = .ok then
    (true, { c with slot := { c.slot with vol := c.slot.vol.init .ok, hasVol := true },
                    leaked := c.leaked + c.slot.vol.lost .ok, volInited := true })
  else
    (false, { c with slot := { c.slot with vol := c.slot.vol.init i.volInit },
                     leaked := c.leaked + c.slot.vol.lost i.volInit })

/-- The user's metadata and `ocf_volume_open`, `/repo/src/mngt/ocf_mngt_core.c:410-422`. -/
def stOpen (i : AddIn) (c : Ctx) : Bool × Ctx :=
  if i.metaOk && i.volOpen then
    (true, { c with slot := { c.slot with vol := { c.slot.vol with opened := true } }, volOpened := true })
  else (false, c)

/-- The length of the core, `/repo/src/mngt/ocf_mngt_core.c:424-431`. -/
def stLen (i : AddIn) (c : Ctx) : Bool × Ctx := (i.lenOk, c)

/-- `ocf_cleaning_add_core`, `/repo/src/mngt/ocf_mngt_core.c:433-439`. -/
def stClean (att : Bool) (i : AddIn) (c : Ctx) : Bool × Ctx :=
  if att then
    if i.cleanOk then
      (true, { c with slot := { c.slot with cleaning := true }, cleanAdded := true })
    else (false, c)
  else (true, c)

/-- `ocf_core_seq_cutoff_init`, `/repo/src/mngt/ocf_mngt_core.c:441-444`, `/repo/src/ocf_seq_cutoff.c:101-113`. -/
def stCutoff (i : AddIn) (c : Ctx) : Bool × Ctx :=
  if i.cutoffOk then (true, { c with slot := { c.slot with cutoff := true }, cutoff := true })
  else (false, c)

/-- The counters, and the marks that the core is there, `/repo/src/mngt/ocf_mngt_core.c:446-473`. -/
def stMark (i : AddIn) (c : Ctx) : Bool × Ctx :=
  if i.countersOk then
    (true, { c with
      slot := { c.slot with counters := true, bit := true, valid := true, added := true, opened := true }
      count := c.count + 1
      counters := true })
  else (false, c)

/-- The sequence number of the core, `/repo/src/mngt/ocf_mngt_core.c:485-493`. -/
def stSeq (i : AddIn) (c : Ctx) : Bool × Ctx := (i.seqOk, c)

/-- `ocf_mngt_cache_add_core_insert` up to the write of the superblock, `/repo/src/mngt/ocf_mngt_core.c:367-493`. -/
def insert (att : Bool) (i : AddIn) : Ctx → Bool × Ctx :=
  andThen (stName i) (andThen (stUuid i) (andThen (stVol i) (andThen (stOpen i) (andThen (stLen i)
    (andThen (stClean att i) (andThen (stCutoff i) (andThen (stMark i) (stSeq i))))))))

/-- The first test of `_ocf_mngt_cache_add_core_handle_error`, `/repo/src/mngt/ocf_mngt_core.c:138-148`. -/
def undoMark (c : Ctx) : Ctx :=
  if c.counters then
    { c with
      slot := { c.slot with bit := false, valid := false, added := false, opened := false, counters := false }
      count := c.count - 1 }
  else c

/-- `_ocf_mngt_cache_add_core_handle_error`, `/repo/src/mngt/ocf_mngt_core.c:124-164`; clearing the uuid does
nothing, `/repo/src/mngt/ocf_mngt_core.c:57-58`, `99-104`. -/
def handleError (c0 : Ctx) : Ctx :=
  let c := undoMark c0
  let sl := c.slot
  let sl := if c.cleanAdded then { sl with cleaning := false } else sl
  let sl := if c.cutoff then { sl with cutoff := false } else sl
  let sl := if c.volOpened then { sl with vol := sl.vol.close } else sl
  let sl := if c.volInited then { sl with vol := sl.vol.deinit } else sl
  { c with slot := sl }

/-- The context as `ocf_mngt_cache_add_core_prepare` leaves it, `/repo/src/mngt/ocf_mngt_core.c:352`. -/
def Ctx.start (s : St) (sl : Slot) : Ctx :=
  { slot := sl, count := s.count, leaked := s.leaked, uuidSet := false, volInited := false,
    volOpened := false, cleanAdded := false, counters := false, cutoff := false }

/-- The cache after a context was worked on at place `k`; in the code the context points at the cache,
`/repo/src/mngt/ocf_mngt_core.c:111-112`. -/
def put (s : St) (k : Nat) (c : Ctx) : St :=
  { s with slots := s.slots.set k c.slot, count := c.count, leaked := c.leaked }

/-- Telling a result, `/repo/src/mngt/ocf_mngt_core.c:540`, `651`, `836`. -/
def tell (s : St) (o : Op) (k : Option Nat) (ok : Bool) : St :=
  { s with told := s.told ++ [(o, k, ok)] }

/-- Adding a core at place `k`: the steps after `ocf_mngt_cache_add_core_prepare`,
`/repo/src/mngt/ocf_mngt_core.c:367-543`: insert, write the superblock if a device is attached, front volume;
`ocf_mngt_cache_add_core_finish` undoes on an error. -/
def addAt (s : St) (i : AddIn) (k : Nat) (sl : Slot) : St :=
  let r := insert s.attached i (Ctx.start s sl)
  if r.1 = false then tell (put s k (handleError r.2)) .add (some k) false else
  let s1 := put s k r.2
  let s2 := if s.attached then
      { s1 with sb := i.flush.dev s1.sb (image s1.slots), stale := decide (i.flush ≠ .ok) } else s1
  if s.attached = true ∧ i.flush ≠ .ok then
    tell (put s2 k (handleError r.2)) .add (some k) false
  else
    let f := frontInit r.2.slot.front i.frontInit i.frontOpen
    let c := { r.2 with slot := { r.2.slot with front := f.2 },
                        leaked := r.2.leaked + r.2.slot.front.lost i.frontInit }
    if f.1 then tell (put s2 k c) .add (some k) true
    else tell { put s2 k (handleError c) with stale := s2.stale || s.attached } .add (some k) false

/-- `ocf_mngt_cache_add_core` without `try_add`, `/repo/src/mngt/ocf_mngt_core.c:567-621`, with
`ocf_mngt_cache_add_core_prepare`, `/repo/src/mngt/ocf_mngt_core.c:329-355`: the name must be of no added core
(`/repo/src/ocf_core.c:62-71`), the uuid of no valid one (`/repo/src/mngt/ocf_mngt_core.c:40-47`). -/
def add (s : St) (i : AddIn) : St :=
  if s.slots.any (fun sl => sl.added && sl.name == i.name) then tell s .add none false
  else if s.slots.any (fun sl => sl.valid && sl.uuid == i.uuid) then tell s .add none false
  else
    match findFree s.slots with
    | none => tell s .add none false
    | some k =>
      match s.slots[k]? with
      | none => tell s .add none false
      | some sl => addAt s i k sl

/-! ### Attaching an inactive core -/

/-- What is asked of `ocf_mngt_cache_add_core` with `try_add` and how the calls it makes go,
`/repo/src/mngt/ocf_mngt_core.c:246-327`, `510-521`. -/
structure TryIn where
  name : Nat
  uuid : Nat
  typeOk : Bool
  volOpen : Bool
  lenOk : Bool
  frontInit : InitR
  frontOpen : Bool
deriving DecidableEq, Repr

/-- One inactive core less: `/repo/src/mngt/ocf_mngt_core.c:319-320`, `/repo/src/mngt/ocf_mngt_common.c:138-139`. -/
def lessInactive (s : St) : St :=
  { s with inactive := s.inactive - 1
           incomplete := if s.inactive - 1 = 0 then false else s.incomplete }

/-- Attaching the core at place `k`: the steps after `ocf_mngt_cache_try_add_core_prepare`,
`/repo/src/mngt/ocf_mngt_core.c:292-327`, `510-543`. No flag of the context is set, so nothing is undone when
the front volume fails. -/
def tryAt (s : St) (i : TryIn) (k : Nat) (sl : Slot) : St :=
  if sl.vol.typ = false then { s with crash := true, pend := .dead }
  else if (sl.vol.opened || !i.volOpen) then tell s .attach (some k) false
  else if !i.lenOk then tell s .attach (some k) false
  else
    let f := frontInit sl.front i.frontInit i.frontOpen
    let sl1 := { sl with vol := { sl.vol with opened := true }, opened := true, front := f.2 }
    let s1 := lessInactive { s with slots := s.slots.set k sl1
                                    leaked := s.leaked + sl.front.lost i.frontInit
                                    fe := s.fe || !f.1 }
    tell s1 .attach (some k) f.1

/-- `ocf_mngt_cache_add_core` with `try_add`, `/repo/src/mngt/ocf_mngt_core.c:567-621`, and
`ocf_mngt_cache_try_add_core_prepare`, `/repo/src/mngt/ocf_mngt_core.c:246-290`. -/
def tryAdd (s : St) (i : TryIn) : St :=
  match s.slots.findIdx? (fun sl => sl.added && sl.name == i.name) with
  | none => tell s .attach none false
  | some k =>
    match s.slots[k]? with
    | none => tell s .attach none false
    | some sl =>
      if sl.opened then tell s .attach none false
      else if !i.typeOk then tell s .attach none false
      else if sl.uuid ≠ i.uuid then tell s .attach none false
      else tryAt s i k sl

/-! ### Removing and detaching a core -/

/-- `_ocf_mngt_cache_remove_core_mapping`, `/repo/src/mngt/ocf_mngt_core.c:665-683`, and how
`ocf_mngt_cache_remove_core_flush_collision_complete` ends, `/repo/src/mngt/ocf_mngt_core.c:656-663`: all lines of the
core are dropped (`/repo/src/mngt/ocf_mngt_common.c:50-105`); `collErr`: the write of the collision section, which
is made only if `dirty_clines` is not 0, fails. -/
def rmStart (s : St) (k : Nat) (sl : Slot) (collErr : Bool) : St :=
  let s1 := if s.attached then { s with slots := s.slots.set k { sl with data := false } } else s
  if s.attached && collErr then tell s1 .remove (some k) false
  else { s1 with pend := .rmBody k, busy := s.busy || decide (sl.io ≠ 0) }

/-- `cache_mngt_core_remove_from_cache`, `/repo/src/mngt/ocf_mngt_common.c:129-140`, on the place. -/
def Slot.fromCache (sl : Slot) : Slot := { sl with cutoff := false, counters := false, added := false }

/-- `cache_mngt_core_remove_from_cache`, `/repo/src/mngt/ocf_mngt_common.c:129-140`; freeing what is freed is a use of
freed memory. -/
def fromCache (s : St) (k : Nat) (sl : Slot) : St :=
  let s1 := { s with slots := s.slots.set k sl.fromCache, uaf := s.uaf || !sl.cutoff || !sl.counters }
  if sl.opened then s1 else lessInactive s1

/-- `cache_mngt_core_remove_from_cleaning_pol` and `cache_mngt_core_remove_from_meta`,
`/repo/src/mngt/ocf_mngt_common.c:37-47`, `108-126`, on the place. -/
def Slot.fromMeta (att : Bool) (sl : Slot) : Slot :=
  { sl with cleaning := if att then false else sl.cleaning, valid := false, bit := false }

/-- `cache_mngt_core_deinit`, `/repo/src/mngt/ocf_mngt_common.c:22-34`, on the place. -/
def Slot.deinit (sl : Slot) : Slot :=
  let sl1 := if sl.opened then { sl with front := sl.front.close.deinit, vol := sl.vol.close } else sl
  let sl2 := if sl1.hasVol then { sl1 with vol := sl1.vol.deinit } else sl1
  { sl2 with opened := false }

/-- After the front volume is closed, `/repo/src/mngt/ocf_mngt_core.c:710-716`: told if no device is attached. -/
def rmEnd (s : St) (k : Nat) : St :=
  if s.attached then { s with pend := .rmFlush k } else tell { s with pend := .idle } .remove (some k) true

/-- `_ocf_mngt_cache_remove_core`, `/repo/src/mngt/ocf_mngt_core.c:694-716`, up to the wait in `ocf_volume_close` of
the front volume; `ocf_volume_close` follows `type` first, `/repo/src/ocf_volume.c:476`. -/
def rmBody (s : St) (k : Nat) (sl : Slot) : St :=
  if sl.opened = true ∧ sl.front.typ = false then { s with crash := true, pend := .dead } else
  let sl1 := sl.fromMeta s.attached
  let s1 := fromCache { s with count := s.count - 1 } k sl1
  if sl.opened then { s1 with pend := .rmClose k }
  else rmEnd { s1 with slots := s1.slots.set k sl1.fromCache.deinit } k

/-- The rest of `cache_mngt_core_deinit` once no request holds the front volume,
`/repo/src/mngt/ocf_mngt_common.c:25-33`. -/
def rmClose (s : St) (k : Nat) (sl : Slot) : St :=
  rmEnd { s with slots := s.slots.set k sl.deinit } k

/-- `ocf_mngt_cache_remove_core_flush_superblock_complete`, `/repo/src/mngt/ocf_mngt_core.c:685-692`. -/
def rmFlush (s : St) (k : Nat) (r : FlushR) : St :=
  tell { s with sb := r.dev s.sb (image s.slots), stale := decide (r ≠ .ok), pend := .idle }
    .remove (some k) (decide (r = .ok))

/-- `_ocf_mngt_cache_detach_core`, `/repo/src/mngt/ocf_mngt_core.c:795-816`, up to the wait in
`ocf_volume_close`. -/
def dtStart (s : St) (k : Nat) (sl : Slot) : St :=
  if sl.opened = false then tell s .detach (some k) false
  else if sl.front.typ = false then { s with crash := true, pend := .dead }
  else { s with pend := .dtClose k }

/-- The rest of `_ocf_mngt_cache_detach_core`, `/repo/src/mngt/ocf_mngt_core.c:807-815`. -/
def dtClose (s : St) (k : Nat) (sl : Slot) : St :=
  tell { s with
      slots := s.slots.set k
        { sl with front := sl.front.close.deinit, vol := sl.vol.close, opened := false }
      inactive := s.inactive + 1
      incomplete := true
      pend := .idle }
    .detach (some k) true

/-! ### Stop, attach and detach of the cache -/

/-- After a core of `_ocf_mngt_cache_stop_remove_cores`: `--no == 0`, `/repo/src/mngt/ocf_mngt_cache.c:2181-2182`. -/
def stopAfter (s : St) (j no : Nat) : St :=
  { s with pend := if no = 1 then .stopped else .stop (j + 1) (no - 1) }

/-- One round of `_ocf_mngt_cache_stop_remove_cores`, `/repo/src/mngt/ocf_mngt_cache.c:2171-2184`, up to the wait in
`ocf_volume_close`. -/
def stopNext (s : St) (j no : Nat) : St :=
  match s.slots[j]? with
  | none => { s with pend := .stopped }
  | some sl =>
    if sl.added = false then { s with pend := .stop (j + 1) no }
    else if sl.opened = true ∧ sl.front.typ = false then { s with crash := true, pend := .dead }
    else
      let s1 := fromCache { s with busy := s.busy || decide (sl.io ≠ 0) } j sl
      if sl.opened then { s1 with pend := .stopClose j no }
      else stopAfter { s1 with slots := s1.slots.set j sl.fromCache.deinit } j no

/-- The rest of a round once no request holds the front volume, `/repo/src/mngt/ocf_mngt_common.c:25-33`,
`/repo/src/mngt/ocf_mngt_cache.c:2180-2182`. -/
def stopClose (s : St) (j no : Nat) (sl : Slot) : St :=
  stopAfter { s with slots := s.slots.set j sl.deinit } j no

/-- The start of the stop: `ocf_mngt_cache_stop_deinit_services`, `/repo/src/mngt/ocf_mngt_cache.c:2197-2214`, then
`ocf_mngt_cache_stop_remove_cores`, `/repo/src/mngt/ocf_mngt_cache.c:2186-2195`. A cache with no device stops with
`ocf_mngt_cache_stop_detached`'s pipeline, which calls `_ocf_mngt_cache_stop_remove_cores` as well
(`/repo/src/mngt/ocf_mngt_cache.c:3439`). -/
def stopStart (s : St) : St :=
  { s with slots := s.slots.map (fun sl => { sl with cleaning := false }), pend := .stop 0 s.count.toNat }

/-- Attach of a cache device: the cleaning policy takes all cores and all metadata are written
(`/repo/src/mngt/ocf_mngt_cache.c:2081-2083`); only its success is modelled. -/
def attachCache (s : St) : St :=
  { s with attached := true
           slots := s.slots.map (fun sl => { sl with cleaning := sl.added })
           sb := image s.slots
           stale := false }

/-- Detach of the cache device: `ocf_mngt_cache_detach_remove_cores` and the end of the cleaning policy,
`/repo/src/mngt/ocf_mngt_cache.c:3818-3849`; `/repo/src/mngt/ocf_mngt_cache.c:3891-3893`. -/
def detachCache (s : St) : St :=
  { s with attached := false
           slots := s.slots.map (fun sl => { sl with cleaning := false, data := false }) }

/-! ### Load -/

/-- How the calls of `_ocf_mngt_load_add_cores` go for one core, `/repo/src/mngt/ocf_mngt_cache.c:432-499`; `pool`: the core's volume is in the pool of
cores. -/
structure LoadIn where
  volInit : InitR
  pool : Bool
  volOpen : Bool
  frontInit : InitR
  frontOpen : Bool
  countersOk : Bool
  cutoffOk : Bool
  lenOk : Bool
deriving DecidableEq, Repr

/-- What became of one core in a load, `/repo/src/mngt/ocf_mngt_cache.c:482-506`. -/
inductive LoadR
  | active
  | inactive
  | err
deriving DecidableEq, Repr

/-- A place as the superblock that was read says, `/repo/src/ocf_core_priv.h:30-58`. -/
def Slot.ofMeta (m : Option (Nat × Nat)) : Slot :=
  match m with
  | none => Slot.empty
  | some (n, u) => { Slot.empty with name := n, uuid := u, valid := true, bit := true }

/-- The volumes of one core in `_ocf_mngt_load_add_cores`, `/repo/src/mngt/ocf_mngt_cache.c:432-468`; `oc` is
`open_cores`. -/
def loadVol (oc : Bool) (i : LoadIn) (sl : Slot) : Slot :=
  let op := i.pool || (oc && i.volOpen)
  { sl with vol := { sl.vol.init .ok with opened := op }, hasVol := true, opened := op, added := true }

/-- One core in `_ocf_mngt_load_add_cores`, `/repo/src/mngt/ocf_mngt_cache.c:419-507`. -/
def loadOne (oc : Bool) (i : LoadIn) (sl : Slot) : Slot × LoadR :=
  if i.volInit ≠ .ok then ({ sl with vol := sl.vol.init i.volInit }, .err) else
  let a := loadVol oc i sl
  let f := frontInit a.front i.frontInit i.frontOpen
  let b := { a with front := f.2 }
  if f.1 = false then (b, .err) else
  if i.countersOk = false then (b, .err) else
  let c := { b with counters := true }
  if i.cutoffOk = false then (c, .err) else
  let d := { c with cutoff := true, cleaning := true }
  if d.opened = false then (d, .inactive)
  else if i.lenOk = false then (d, .err)
  else (d, .active)

/-- All cores of a superblock, the loop of `/repo/src/mngt/ocf_mngt_cache.c:419-507`; the cores after one that failed are not looked at. The number is that of the
cores left inactive. -/
def loadAll (oc : Bool) (ins : Nat → LoadIn) : Nat → List (Option (Nat × Nat)) → List Slot × Nat × Bool
  | _, [] => ([], 0, true)
  | k, m :: ms =>
    if m = none then
      let r := loadAll oc ins (k + 1) ms
      (Slot.ofMeta m :: r.1, r.2.1, r.2.2)
    else
      let o := loadOne oc (ins k) (Slot.ofMeta m)
      if o.2 = .err then (o.1 :: ms.map Slot.ofMeta, 0, false)
      else
        let r := loadAll oc ins (k + 1) ms
        (o.1 :: r.1, r.2.1 + (if o.2 = .inactive then 1 else 0), r.2.2)

/-- `_ocf_mngt_deinit_added_cores` for one core, `/repo/src/mngt/ocf_mngt_cache.c:373-398`. -/
def Slot.deinitAdded (oc : Bool) (sl : Slot) : Slot :=
  if sl.added = false then sl else
  let sl1 := if oc then { sl with vol := sl.vol.close } else sl
  let sl2 := if sl1.front.opened then { sl1 with front := sl1.front.close.deinit } else sl1
  { sl2 with cutoff := false, counters := false, added := false }

/-- `_ocf_mngt_load_superblock` and `_ocf_mngt_load_add_cores`, `/repo/src/mngt/ocf_mngt_cache.c:404-516`, on a
cache with no cores, from a device whose superblock is `img`; the cleaning policy takes the cores in a later
step (`/repo/src/mngt/ocf_mngt_cache.c:2111`), put here with the rest. -/
def load (s : St) (oc : Bool) (ins : Nat → LoadIn) (img : List (Option (Nat × Nat))) : St :=
  let r := loadAll oc ins 0 img
  let n : Int := (img.countP Option.isSome : Nat)
  if r.2.2 then
    tell { s with slots := r.1, count := n, inactive := (r.2.1 : Nat), incomplete := decide (r.2.1 ≠ 0)
                  attached := true, sb := img, stale := false, li := s.li || decide (r.2.1 ≠ 0) }
      .load none true
  else
    tell { s with slots := r.1.map (Slot.deinitAdded oc), count := n, inactive := (r.2.1 : Nat)
                  sb := img, pend := .failed }
      .load none false

/-! ### The whole -/

/-- Whether new requests for place `k` are refused: its front volume is being closed,
`/repo/src/ocf_volume.c:482`. -/
def frozen (p : Pend) (k : Nat) : Bool :=
  match p with
  | .rmClose j => decide (j = k)
  | .dtClose j => decide (j = k)
  | .stopClose j _ => decide (j = k)
  | _ => false

/-- Whether the core at place `k` is being removed, before its front volume is closed to requests,
`/repo/src/mngt/ocf_mngt_core.c:742-746`. -/
def removing (p : Pend) (k : Nat) : Bool :=
  match p with
  | .rmBody j => decide (j = k)
  | _ => false

/-- `ocf_io_new` takes a reference of the front volume, `/repo/src/ocf_io.c:86`. -/
def ioStart (s : St) (k : Nat) (sl : Slot) : St :=
  { s with slots := s.slots.set k { sl with io := sl.io + 1 }, busy := s.busy || removing s.pend k }

/-- A request counts itself and looks at the streams of its core, `/repo/src/ocf_stats.c:77-154`,
`/repo/src/ocf_seq_cutoff.c:186-228`; `d`: it leaves data in the cache that the core does not have. -/
def ioWork (s : St) (k : Nat) (sl : Slot) (d : Bool) : St :=
  { s with slots := s.slots.set k { sl with data := sl.data || (d && s.attached) }
           uaf := s.uaf || !sl.counters || !sl.cutoff }

/-- The user puts the request, `/repo/src/ocf_io.c:138`. -/
def ioEnd (s : St) (k : Nat) (sl : Slot) : St :=
  { s with slots := s.slots.set k { sl with io := sl.io - 1 } }

/-- A cleaner or a flush writes the data of a core to it, `/repo/src/utils/utils_cleaner.c:709-772`. -/
def clean (s : St) (k : Nat) (sl : Slot) : St :=
  { s with slots := s.slots.set k { sl with data := false } }

/-- A cache just started with `n` places, `__init_cores`, `/repo/src/mngt/ocf_mngt_cache.c:273-279`. -/
def fresh (n : Nat) : St :=
  { slots := List.replicate n Slot.empty, count := 0, inactive := 0, incomplete := false,
    attached := false, sb := [], pend := .idle, told := [], leaked := 0, crash := false, uaf := false,
    fe := false, li := false, busy := false, stale := false }

/-- One step of the user, of an operation (the pipelines of `/repo/src/mngt/ocf_mngt_core.c:545-565`, `739-748`,
`862-870`) or of a request. An operation starts when none runs: the user has the
management lock. Removing and detaching name a core that is added. A load is made on a cache as it was
started, from a superblock in which no two cores have one name or one uuid. -/
inductive Step : St → St → Prop
  | add (s : St) (i : AddIn) (h : s.pend = .idle) : Step s (add s i)
  | tryAdd (s : St) (i : TryIn) (h : s.pend = .idle) : Step s (tryAdd s i)
  | rmStart (s : St) (k : Nat) (sl : Slot) (e : Bool) (h : s.pend = .idle) (hg : s.slots[k]? = some sl)
      (ha : sl.added = true) : Step s (rmStart s k sl e)
  | rmBody (s : St) (k : Nat) (sl : Slot) (h : s.pend = .rmBody k) (hg : s.slots[k]? = some sl) :
      Step s (rmBody s k sl)
  | rmClose (s : St) (k : Nat) (sl : Slot) (h : s.pend = .rmClose k) (hg : s.slots[k]? = some sl)
      (hi : sl.io = 0) : Step s (rmClose s k sl)
  | rmFlush (s : St) (k : Nat) (r : FlushR) (h : s.pend = .rmFlush k) : Step s (rmFlush s k r)
  | dtStart (s : St) (k : Nat) (sl : Slot) (h : s.pend = .idle) (hg : s.slots[k]? = some sl)
      (ha : sl.added = true) : Step s (dtStart s k sl)
  | dtClose (s : St) (k : Nat) (sl : Slot) (h : s.pend = .dtClose k) (hg : s.slots[k]? = some sl)
      (hi : sl.io = 0) : Step s (dtClose s k sl)
  | stopStart (s : St) (h : s.pend = .idle) : Step s (stopStart s)
  | stopNext (s : St) (j no : Nat) (h : s.pend = .stop j no) : Step s (stopNext s j no)
  | stopClose (s : St) (j no : Nat) (sl : Slot) (h : s.pend = .stopClose j no)
      (hg : s.slots[j]? = some sl) (hi : sl.io = 0) : Step s (stopClose s j no sl)
  | attachCache (s : St) (h : s.pend = .idle) (ha : s.attached = false) : Step s (attachCache s)
  | detachCache (s : St) (h : s.pend = .idle) (ha : s.attached = true) : Step s (detachCache s)
  | load (s : St) (oc : Bool) (ins : Nat → LoadIn) (img : List (Option (Nat × Nat)))
      (h : s.pend = .idle) (h0 : ∀ sl ∈ s.slots, sl = Slot.empty) (ha : s.attached = false)
      (hl : img.length = s.slots.length)
      (hn : ∀ (a b : Nat) (n u v : Nat), img[a]? = some (some (n, u)) → img[b]? = some (some (n, v)) → a = b)
      (hu : ∀ (a b : Nat) (n m u : Nat), img[a]? = some (some (n, u)) → img[b]? = some (some (m, u)) → a = b) :
      Step s (load s oc ins img)
  | ioStart (s : St) (k : Nat) (sl : Slot) (hg : s.slots[k]? = some sl) (ho : sl.front.opened = true)
      (hf : frozen s.pend k = false) : Step s (ioStart s k sl)
  | ioWork (s : St) (k : Nat) (sl : Slot) (d : Bool) (hg : s.slots[k]? = some sl) (hi : sl.io ≠ 0) :
      Step s (ioWork s k sl d)
  | ioEnd (s : St) (k : Nat) (sl : Slot) (hg : s.slots[k]? = some sl) (hi : sl.io ≠ 0) :
      Step s (ioEnd s k sl)
  | clean (s : St) (k : Nat) (sl : Slot) (hg : s.slots[k]? = some sl) : Step s (clean s k sl)

end Verif.CoreMngt
