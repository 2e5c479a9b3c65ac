/-!
Choice of the cache mode and of the engine for an I/O request.
-/

namespace Verif.Mode

/-- `ocf_cache_mode_t`, `/repo/inc/ocf_def.h:153-180`, and `ocf_req_cache_mode_t`,
`/repo/src/ocf_request.h:15-32`, are both integers: the request modes 0..5 are the cache modes, 6 is
the fast path. `ocf_req_cache_mode_wt`, `/repo/src/ocf_request.h:17`. -/
def wt : Int := 0
/-- `/repo/src/ocf_request.h:18`. -/
def wb : Int := 1
/-- `/repo/src/ocf_request.h:19`. -/
def wa : Int := 2
/-- `/repo/src/ocf_request.h:20`. -/
def pt : Int := 3
/-- `/repo/src/ocf_request.h:21`. -/
def wi : Int := 4
/-- `/repo/src/ocf_request.h:22`. -/
def wo : Int := 5
/-- `/repo/src/ocf_request.h:25`. -/
def fast : Int := 6
/-- `ocf_req_cache_mode_max`, `/repo/src/ocf_request.h:31`. -/
def reqMax : Int := 8

/-- `ocf_cache_mode_is_valid`, `/repo/src/ocf_cache.c:56-59`. -/
def isValid (m : Int) : Bool := decide (0 ≤ m) && decide (m < 6)

/-- `ocf_req_cache_mode_has_lazy_write`, `/repo/src/engine/cache_engine.c:258-263`, with
`ocf_mngt_cache_mode_has_lazy_write`, `/repo/inc/ocf_mngt.h:839-842`. -/
def hasLazy (m : Int) : Bool := isValid m && (m == wb || m == wo)

/-- The engine entry points, `/repo/src/engine/cache_engine.c:46-110`, and `ocf_d2c_io_fast`. -/
inductive Engine
  | readGeneric | readPt | readWo | readFast
  | writeWt | writeWb | writeWa | writeWi | writeFast
  | d2c
deriving DecidableEq, Repr

/-- The part of `struct ocf_cache` and its configuration that matters here
(`/repo/src/ocf_cache_priv.h:60-160`): fallback threshold and error counter, `attach_pt`,
`pt_unaligned_io`, number of cache lines, configured mode, and per I/O class (below `classMax`)
whether it is valid and its mode. -/
structure Cache where
  threshold : Nat
  errors : Nat
  attachPt : Bool
  ptUnaligned : Bool
  lines : Nat
  mode : Int
  classMax : Nat
  clsValid : Nat → Bool
  clsMode : Nat → Int
  useFast : Bool
  standby : Bool

/-- `OCF_WRITE` is `write`; `lineCount` is `core_line_count`; `d2c` is the flag set for requests
created while the metadata is not available (`/repo/src/ocf_request.c:199-207`). -/
structure Req where
  addr : Nat
  bytes : Nat
  write : Bool
  ioClass : Nat
  lineCount : Nat
  d2c : Bool

/-- `ocf_fallback_pt_is_on`, `/repo/src/engine/cache_engine.c:139-152`
(`OCF_CACHE_FALLBACK_PT_INACTIVE` is 0, `/repo/inc/ocf_def.h:43`).
Simplification: the counter does not overflow a C int. -/
def fallbackOn (c : Cache) : Bool :=
  if c.threshold = 0 then false else decide (c.threshold ≤ c.errors)

/-- `inc_fallback_pt_error_counter`, `/repo/src/engine/engine_common.c:595-607`. -/
def incError (c : Cache) : Cache :=
  if c.threshold = 0 then c else { c with errors := c.errors + 1 }

/-- `ocf_mngt_cache_set_fallback_pt_error_threshold`, `/repo/src/mngt/ocf_mngt_cache.c:3727-3757`
(the largest threshold is 1000000, `/repo/inc/ocf_def.h:52`); true for success. -/
def setThreshold (c : Cache) (n : Nat) : Cache × Bool :=
  if c.standby then (c, false)
  else if n > 1000000 then (c, false)
  else ({ c with threshold := n }, true)

/-- `ocf_mngt_cache_reset_fallback_pt_error_counter`, `/repo/src/mngt/ocf_mngt_cache.c:3710-3725`.
-/
def resetErrors (c : Cache) : Cache × Bool :=
  if c.standby then (c, false) else ({ c with errors := 0 }, true)

/-- `ocf_mngt_cache_set_mode` and `_cache_mngt_set_cache_mode`,
`/repo/src/mngt/ocf_mngt_cache.c:3576-3636`; true for success. The result assigned for a detached
cache is overwritten (`/repo/src/mngt/ocf_mngt_cache.c:3617-3626`), so that case succeeds as well. -/
def setMode (c : Cache) (m : Int) : Cache × Bool :=
  if c.standby then (c, false)
  else if !isValid m then (c, false)
  else ({ c with mode := m }, true)

/-- `ocf_user_part_class2id`, `/repo/src/utils/utils_user_part.h:45-52`. -/
def class2id (c : Cache) (cls : Nat) : Nat :=
  if cls < c.classMax then (if c.clsValid cls then cls else 0) else 0

/-- `ocf_user_part_get_cache_mode`, `/repo/src/utils/utils_user_part.h:128-134`. -/
def partMode (c : Cache) (id : Nat) : Int := if id < c.classMax then c.clsMode id else -1

/-- `ocf_req_is_4k`, `/repo/src/ocf_request.h:552-555`. -/
def is4k (r : Req) : Bool := !(r.addr % 4096 != 0 || r.bytes % 4096 != 0)

/-- The mode configured for a request, `/repo/src/engine/cache_engine.c:185-189`, called with the
part id set at `/repo/src/ocf_core.c:296`. -/
def pick (c : Cache) (r : Req) : Int :=
  let m := partMode c (class2id c (class2id c r.ioClass))
  if !isValid m then c.mode else m

/-- `ocf_resolve_effective_cache_mode`, `/repo/src/engine/cache_engine.c:154-198`. `cutoff` is the answer of `ocf_core_seq_cutoff_check`,
`dirtyOk` whether `ocf_req_set_dirty` (`/repo/src/ocf_request.c:410-414`) can get a reference of the
dirty counter. Result: the mode, and whether the request holds such a reference. -/
def resolve (c : Cache) (r : Req) (cutoff dirtyOk : Bool) : Int × Bool :=
  if fallbackOn c then (pt, false)
  else if c.attachPt then (pt, false)
  else if c.ptUnaligned && !is4k r then (pt, false)
  else if r.lineCount > c.lines then (pt, false)
  else if cutoff then (pt, false)
  else
    if r.write && hasLazy (pick c r) then (if dirtyOk then (pick c r, true) else (wt, false))
    else (pick c r, false)

/-- `ocf_cache_mode_to_engine_cb` with the tables, `/repo/src/engine/cache_engine.c:46-120` and
`130-137`; `none` is NULL. -/
def engineOf (m : Int) (write : Bool) : Option Engine :=
  if m = wt then some (if write then .writeWt else .readGeneric)
  else if m = wb then some (if write then .writeWb else .readGeneric)
  else if m = wa then some (if write then .writeWa else .readGeneric)
  else if m = wi then some (if write then .writeWi else .readGeneric)
  else if m = wo then some (if write then .writeWb else .readWo)
  else if m = pt then some (if write then .writeWi else .readPt)
  else if m = fast then some (if write then .writeFast else .readFast)
  else none

/-- `_ocf_core_req_resolve_fast_mode`, `/repo/src/ocf_core.c:220-235`. -/
def fastMode (c : Cache) (m : Int) : Int :=
  if m = wb then fast
  else if m = wo then fast
  else if !c.useFast then reqMax
  else fast

/-- `ocf_core_volume_submit_io`, `/repo/src/ocf_core.c:259-327`, with `ocf_core_submit_io_fast`,
`/repo/src/ocf_core.c:237-257`, and `ocf_engine_hndl_req`, `/repo/src/engine/cache_engine.c:200-221`:
the engine that serves the request, and whether it holds a dirty reference. `fastOk` tells if the
fast path finds all lines present and its class with space (`/repo/src/engine/engine_fast.c:93-201`).
`none` is an error returned to the submitter.
Simplification: the request passes validation and its map can be allocated. -/
def submit (c : Cache) (r : Req) (cutoff dirtyOk fastOk : Bool) : Option (Engine × Bool) :=
  if c.standby then none
  else if r.d2c then some (.d2c, false)
  else
    let m := resolve c r cutoff dirtyOk
    let viaFast : Option Engine :=
      if m.1 = pt then none
      else if fastMode c m.1 = reqMax then none
      else if fastOk then engineOf (fastMode c m.1) r.write
      else none
    match viaFast with
    | some e => some (e, m.2)
    | none => (engineOf m.1 r.write).map (fun e => (e, m.2))

end Verif.Mode
