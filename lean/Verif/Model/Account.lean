import Verif.Model.Bits

/-!
Model of the per-core and per-I/O-class counters of cached and dirty cache lines.
Sources: `/repo/src/utils/utils_cache_line.c`, `/repo/src/ocf_lru.c`,
`/repo/src/utils/utils_user_part.c`, `/repo/src/metadata/metadata_misc.c`,
`/repo/src/mngt/ocf_mngt_cache.c`, `/repo/src/mngt/ocf_mngt_core.c`.

The bitmaps and their operations are those of `Verif.Model.Bits` (C03). A call is one step: the
bitmap of a line is changed under the hash bucket lock and the line lock, and the counters are
only ever added to (atomically) or reset, so that the value of a counter once the running calls
have returned does not depend on how their additions interleave. Counters are `env_atomic`
(a C `int`); overflow is not modelled, they are integers. `dirty_since`, the LRU lists, the
collision lists and the cleaning policy are left out (C05, C04, C28, C29).
-/

namespace Verif.Account

open Verif.Bits

/-- What is stored per cache line: status bitmaps, and core and I/O class of a mapped line
(`core_id` is `OCF_CORE_MAX`, here `none`, in the core info of an unmapped one,
`/repo/src/metadata/metadata.c:821-830`). `fresh`: the line is still write locked by the request
that mapped it (`/repo/src/ocf_lru.c:747-752`), which has neither made a sector of it valid and
let go of it nor given it up. -/
structure Line (w : Nat) where
  bits : LineBits w
  owner : Option (Nat × Nat)
  fresh : Bool

/-- The counters of `struct ocf_core_meta_runtime`, `/repo/src/ocf_core_priv.h:60-78`, indexed by
core, and by core and I/O class, together with the cache lines of the cache.
`added` is the set of cores of the cache (`valid_core_bitmap`).
The last five fields are history variables, absent from the code: they count per core, and per
core and class, the events that the counters do not follow (`skipped`, `pskipped`: a line with
waiters lost its last valid sector; `phantom`, `pphantom`: a line without a valid sector was
evicted; `carried`: net number of lines without a valid sector moved into the class). -/
structure St (w : Nat) where
  lines : List (Line w)
  cached : Nat → Int
  dirty : Nat → Int
  pcached : Nat → Nat → Int
  pdirty : Nat → Nat → Int
  added : Nat → Bool
  skipped : Nat → Int
  phantom : Nat → Int
  pskipped : Nat → Nat → Int
  pphantom : Nat → Nat → Int
  carried : Nat → Nat → Int

/-- `env_atomic_inc`/`env_atomic_dec` of an element of a counter array,
`/repo/src/utils/utils_cache_line.c:86`, `:40`. -/
def bump (f : Nat → Int) (i : Nat) (d : Int) : Nat → Int := fun j => if j = i then f j + d else f j

/-- The same for `part_counters[part_id]`, `/repo/src/utils/utils_cache_line.c:87-88`, `:41-42`. -/
def bump2 (f : Nat → Nat → Int) (i p : Nat) (d : Int) : Nat → Nat → Int :=
  fun j q => if j = i ∧ q = p then f j q + d else f j q

/-- Store a line, `/repo/src/metadata/metadata_bit.h:107-152` (the bitmaps) and
`/repo/src/metadata/metadata_core.h:15` (core info). -/
def St.put {w} (s : St w) (i : Nat) (l : Line w) : St w := { s with lines := s.lines.set i l }

/-- `__set_cache_line_invalid`, `/repo/src/utils/utils_cache_line.c:10-43`, for line `i` (holding
`l`) of core `c` and class `p`; `waiters` is the result of `ocf_cache_line_are_waiters`. A request
that finds its new line wanted by others leaves it to them (`fresh` ends). -/
def setInvalid {w} (s : St w) (i : Nat) (l : Line w) (c p a b : Nat) (waiters : Bool) :
    Option (St w) := do
  let (bits, becameInvalid, remainsValid) ← clearValidSecChanged l.bits a b
  if remainsValid then
    if becameInvalid then none else some (s.put i { l with bits := bits })
  else if waiters then
    some { s.put i { l with bits := bits, fresh := false } with
      skipped := bump s.skipped c (if becameInvalid then 1 else 0)
      pskipped := bump2 s.pskipped c p (if becameInvalid then 1 else 0) }
  else
    let s1 := s.put i { bits := bits, owner := none, fresh := false }
    if !becameInvalid then some s1
    else some { s1 with cached := bump s.cached c (-1), pcached := bump2 s.pcached c p (-1) }

/-- `set_cache_line_valid`, `/repo/src/utils/utils_cache_line.c:76-90`. -/
def setValid {w} (s : St w) (i : Nat) (l : Line w) (c p a b : Nat) : Option (St w) := do
  let (bits, changed) ← setValidSecChanged l.bits a b
  let s1 := s.put i { l with bits := bits }
  if changed then
    some { s1 with cached := bump s.cached c 1, pcached := bump2 s.pcached c p 1 }
  else some s1

/-- `set_cache_line_clean`, `/repo/src/utils/utils_cache_line.c:92-132`. -/
def setClean {w} (s : St w) (i : Nat) (l : Line w) (c p a b : Nat) : Option (St w) := do
  let (bits, changed, isClean) ← clearDirtySecChanged l.bits a b
  let s1 := s.put i { l with bits := bits }
  if changed then
    if isClean then
      some { s1 with dirty := bump s.dirty c (-1), pdirty := bump2 s.pdirty c p (-1) }
    else some s1
  else some s1

/-- `set_cache_line_dirty`, `/repo/src/utils/utils_cache_line.c:134-174`. -/
def setDirty {w} (s : St w) (i : Nat) (l : Line w) (c p a b : Nat) : Option (St w) := do
  let (bits, changed, wasDirty) ← setDirtySecChanged l.bits a b
  let s1 := s.put i { l with bits := bits }
  if changed then
    if !wasDirty then
      some { s1 with dirty := bump s.dirty c 1, pdirty := bump2 s.pdirty c p 1 }
    else some s1
  else some s1

/-- `ocf_lru_invalidate`, `/repo/src/ocf_lru.c:654-671`, of a line that `ocf_lru_req_clines`
found clean (the assertion of `/repo/src/ocf_lru.c:727`; `none` if it is not). -/
def evict {w} (s : St w) (i : Nat) (l : Line w) (c p : Nat) : Option (St w) := do
  let d ← testBits l.bits.dirty 0 (w - 1) false
  if d then none
  else
    let (v, _) ← clearBits l.bits.valid 0 (w - 1)
    some { s.put i { bits := { l.bits with valid := v }, owner := none, fresh := false } with
      cached := bump s.cached c (-1)
      pcached := bump2 s.pcached c p (-1)
      phantom := bump s.phantom c (if l.bits.valid = 0#w then 1 else 0)
      pphantom := bump2 s.pphantom c p (if l.bits.valid = 0#w then 1 else 0) }

/-- `ocf_user_part_move`, `/repo/src/utils/utils_user_part.c:96-166`, one line of core `c` moved
from class `p` to class `q`. -/
def repart {w} (s : St w) (i : Nat) (l : Line w) (c p q : Nat) : Option (St w) := do
  if p = q then some s
  else
    let d ← testBits l.bits.dirty 0 (w - 1) false
    some { s.put i { l with owner := some (c, q) } with
      pcached := bump2 (bump2 s.pcached c q 1) c p (-1)
      pdirty := if d then bump2 (bump2 s.pdirty c q 1) c p (-1) else s.pdirty
      carried := if l.bits.valid = 0#w then bump2 (bump2 s.carried c q 1) c p (-1)
        else s.carried }

/-- `ocf_map_cache_line` with the class set before it, `/repo/src/engine/engine_common.c:310-329`,
`/repo/src/ocf_lru.c:745`: an unmapped line becomes one of core `c` and class `p`. -/
def map {w} (s : St w) (i : Nat) (l : Line w) (c p : Nat) : St w :=
  s.put i { l with owner := some (c, p), fresh := true }

/-- `_ocf_purge_cache_line_sec`, `/repo/src/utils/utils_cache_line.h:154-162`. -/
def purge {w} (s : St w) (i : Nat) (l : Line w) (c p a b : Nat) (waiters : Bool) :
    Option (St w) := do
  let s1 ← setClean s i l c p a b
  let l1 ← s1.lines[i]?
  setInvalid s1 i l1 c p a b waiters

/-- `ocf_metadata_sparse_cache_line`, `/repo/src/metadata/metadata_misc.c:22-36`. -/
def sparse {w} (s : St w) (i : Nat) (l : Line w) (c p : Nat) (waiters : Bool) :
    Option (St w) := do
  let s1 ← setInvalid s i l c p 0 (w - 1) waiters
  let l1 ← s1.lines[i]?
  let (d, _) ← clearBits l1.bits.dirty 0 (w - 1)
  some (s1.put i { l1 with bits := { l1.bits with dirty := d } })

/-- The counters of a core set to zero when it is added, `/repo/src/mngt/ocf_mngt_core.c:456-465`,
and the bit of the core set, `:468`. The history variables restart with the counters. -/
def addCore {w} (s : St w) (c : Nat) : St w :=
  { s with
    cached := fun j => if j = c then 0 else s.cached j
    dirty := fun j => if j = c then 0 else s.dirty j
    pcached := fun j p => if j = c then 0 else s.pcached j p
    pdirty := fun j p => if j = c then 0 else s.pdirty j p
    added := fun j => if j = c then true else s.added j
    skipped := fun j => if j = c then 0 else s.skipped j
    phantom := fun j => if j = c then 0 else s.phantom j
    pskipped := fun j p => if j = c then 0 else s.pskipped j p
    pphantom := fun j p => if j = c then 0 else s.pphantom j p
    carried := fun j p => if j = c then 0 else s.carried j p }

/-- Sectors `a`..`b` exist and are given in order: what the map of a request yields,
`/repo/src/utils/utils_cache_line.h:217-237` (C34). -/
def InLine (w a b : Nat) : Prop := a ≤ b ∧ b < w

/-- Line `i` holds `l` and is mapped to core `c` in class `p`, as read by
`ocf_metadata_get_core_and_part_id`, `/repo/src/utils/utils_cache_line.c:70`. -/
def Holds {w} (s : St w) (i : Nat) (l : Line w) (c p : Nat) : Prop :=
  s.lines[i]? = some l ∧ l.owner = some (c, p)

/-- What is called on cache lines, with the conditions of the callers (cited for each;
`/repo/src/utils/utils_cache_line.c:10-174`). `wa`: lines may have waiters when they are
invalidated. -/
inductive Step {w : Nat} (wa : Bool) : St w → St w → Prop
  /-- A line is taken from the free list, `/repo/src/ocf_lru.c:721`, `:745`. -/
  | map {s : St w} (i l c p) : s.lines[i]? = some l → l.owner = none → s.added c = true →
      Step wa s (map s i l c p)
  /-- A clean line is evicted, `/repo/src/ocf_lru.c:741` (mapping it again is `map`); lines locked
  for a request are passed over, `/repo/src/ocf_lru.c:407-438`. -/
  | evict {s t : St w} (i l c p) : Holds s i l c p → l.fresh = false → evict s i l c p = some t → Step wa s t
  /-- Write-through, backfill, write-back: `/repo/src/engine/engine_wt.c:36`,
  `/repo/src/engine/engine_bf.c:48`, `/repo/src/engine/engine_wb.c:38`. -/
  | valid {s t : St w} (i l c p a b) : Holds s i l c p → InLine w a b →
      setValid s i l c p a b = some t → Step wa s t
  /-- Write-back: the sectors were found valid by the lookup or have been made valid just before,
  `/repo/src/engine/engine_wb.c:36-43`. -/
  | dirty {s t : St w} (i l c p a b) : Holds s i l c p → InLine w a b →
      testBits l.bits.valid a b true = some true → setDirty s i l c p a b = some t → Step wa s t
  /-- Write-through over dirty sectors, cleaner: `/repo/src/engine/engine_wt.c:43`,
  `/repo/src/utils/utils_cleaner.c:347`. -/
  | clean {s t : St w} (i l c p a b) : Holds s i l c p → InLine w a b →
      setClean s i l c p a b = some t → Step wa s t
  /-- Invalidation: `/repo/src/engine/engine_inv.c:40`, `/repo/src/engine/engine_wi.c:83`,
  `/repo/src/engine/engine_discard.c:109`, `/repo/src/engine/engine_zero.c:27`. -/
  | purge {s t : St w} (i l c p a b waiters) : (waiters = true → wa = true) → Holds s i l c p → InLine w a b →
      purge s i l c p a b waiters = some t → Step wa s t
  /-- A line just mapped for a request that did not get all its lines is given back; it never
  had a valid sector, `/repo/src/engine/engine_common.c:347-366`. -/
  | unmap {s t : St w} (i l c p waiters) : (waiters = true → wa = true) → Holds s i l c p → l.bits.valid = 0#w →
      setInvalid s i l c p 0 (w - 1) waiters = some t → Step wa s t
  /-- The request that mapped the line unlocks it, having made sectors of it valid,
  `/repo/src/engine/engine_bf.c:48-52`, `/repo/src/engine/engine_wt.c:36`, `:106`. -/
  | release {s : St w} (i l c p) : Holds s i l c p → l.bits.valid ≠ 0#w →
      Step wa s (s.put i { l with fresh := false })
  /-- Lines change class, `/repo/src/engine/engine_wt.c:51`; only lines found by the lookup do
  (`re_part`, `/repo/src/engine/engine_common.c:134-186`). -/
  | repart {s t : St w} (i l c p q) : Holds s i l c p → l.fresh = false → repart s i l c p q = some t → Step wa s t
  /-- Purge of a core or cache, after it was flushed with writes making lines dirty held off,
  `/repo/src/mngt/ocf_mngt_flush.c:814-827`. -/
  | sparse {s t : St w} (i l c p waiters) : (waiters = true → wa = true) → Holds s i l c p → l.bits.dirty = 0#w →
      sparse s i l c p waiters = some t → Step wa s t
  /-- Removal of a core begins, `/repo/src/mngt/ocf_mngt_core.c:739-748`; its bit is cleared at the
  end of it, `/repo/src/mngt/ocf_mngt_common.c:122`, here `added` ends at once. -/
  | remove {s : St w} (c) : Step wa s { s with added := fun j => if j = c then false else s.added j }
  /-- Its lines, dirty ones included, are dropped, `/repo/src/mngt/ocf_mngt_common.c:84-90`. -/
  | drop {s t : St w} (i l c p waiters) : (waiters = true → wa = true) → Holds s i l c p → s.added c = false →
      sparse s i l c p waiters = some t → Step wa s t
  /-- A core is added once no line of an earlier core with this number is left,
  `/repo/src/mngt/ocf_mngt_common.c:99-103`, `/repo/src/mngt/ocf_mngt_core.c:456-468`. -/
  | add {s : St w} (c) : (∀ (i : Nat) (l : Line w) p, s.lines[i]? = some l → l.owner ≠ some (c, p)) →
      Step wa s (addCore s c)

/-- A line read back from the cache device, `/repo/src/mngt/ocf_mngt_cache.c:599`: bitmaps, core
(`none` for `OCF_CORE_MAX`). -/
structure Stored (w : Nat) where
  bits : LineBits w
  core : Option Nat

/-- One line of `ocf_mngt_rebuild_metadata_handle`, `/repo/src/mngt/ocf_mngt_cache.c:599-628`:
valid sectors that are not dirty are dropped, lines without a valid sector left are freed and the
others are mapped in the default class (number 0, `/repo/src/metadata/metadata_partition.h:12`). -/
def rebuildLine {w} (r : Stored w) : Option (Line w) := do
  if !check r.bits then none
  else
    let (bits, anyValid) ← clearValidIfClean r.bits 0 (w - 1)
    match anyValid, r.core with
    | true, some c => some { bits := bits, owner := some (c, 0), fresh := false }
    | _, _ => some { bits := init w, owner := none, fresh := false }

/-- `ocf_mngt_rebuild_metadata_finish`, `/repo/src/mngt/ocf_mngt_cache.c:641-667`: the number of
lines mapped to a core becomes the value of its counters. The shards are added up
(`:631-634`, C22); other classes start from zero, `/repo/src/mngt/ocf_mngt_cache.c:295-306`. -/
def rebuilt {w} (lines : List (Line w)) (added : Nat → Bool) : St w :=
  let n := fun c => (lines.countP (fun l => l.owner == some (c, 0)) : Int)
  { lines := lines
    cached := n
    dirty := n
    pcached := fun c p => if p = 0 then n c else 0
    pdirty := fun c p => if p = 0 then n c else 0
    added := added
    skipped := fun _ => 0
    phantom := fun _ => 0
    pskipped := fun _ _ => 0
    pphantom := fun _ _ => 0
    carried := fun _ _ => 0 }

/-- Where the cache starts: attached empty (`_reset_stats`,
`/repo/src/mngt/ocf_mngt_cache.c:295-306`, all lines as `_ocf_init_collision_entry`,
`/repo/src/metadata/metadata.c:821-830`), which is the rebuild of lines that are all unmapped,
or rebuilt from what the device holds. All mapped lines are those of cores that are there
(`/repo/src/mngt/ocf_mngt_cache.c:617-622`). -/
inductive Init {w : Nat} : St w → Prop
  | mk (rs : List (Stored w)) (lines : List (Line w)) (added : Nat → Bool) :
      rs.mapM rebuildLine = some lines →
      (∀ l ∈ lines, ∀ c p, l.owner = some (c, p) → added c = true) →
      Init (rebuilt lines added)

end Verif.Account
