/-!
Model of the discard engine: the split of a range into steps, the removal of cached copies, and the
completion protocol. Sources: `/repo/src/engine/engine_discard.c`, `/repo/src/ocf_core.c`,
`/repo/src/ocf_request.c`, `/repo/src/utils/utils_cache_line.h`.

Simplifications. One discard request of a core; the other requests are a step that changes the cache in an
arbitrary way. Cache lines are named by the core line they hold: the mapping found by the lookup stays while
the lines are locked (properties C04, C13). Errors are a flag. Addresses do not wrap at 64 bits. The pages
written by a metadata flush and the promotion policy are not modelled.
-/

namespace Verif.Discard

/-- `struct ocf_req_discard_info` (`/repo/src/ocf_request.h:108-117`) as set by `ocf_req_new`
(`/repo/src/ocf_request.c:248-250`), with the number of sectors of a line and whether metadata is volatile.
-/
structure Conf where
  S : Nat
  sector : Nat
  nr : Nat
  vol : Bool

/-- `MAX_TRIM_RQ_SIZE` (`/repo/inc/ocf_def.h:342`). -/
def maxTrim : Nat := 512 * 1024

/-- `ocf_bytes_2_lines` (`/repo/src/utils/utils_cache_line.h:29-33`). -/
def Conf.line (c : Conf) (addr : Nat) : Nat := addr / (512 * c.S)

/-- `req->addr` of the step that starts with `handled` sectors done
(`/repo/src/engine/engine_discard.c:152-153`). -/
def Conf.addr (c : Conf) (handled : Nat) : Nat := (c.sector + handled) * 512

/-- `req->bytes` of a step (`/repo/src/engine/engine_discard.c:154-155`). -/
def Conf.bytes (c : Conf) (handled : Nat) : Nat := min ((c.nr - handled) * 512) maxTrim

/-- `req->core_line_first` (`/repo/src/engine/engine_discard.c:156`). -/
def Conf.first (c : Conf) (handled : Nat) : Nat := c.line (c.addr handled)

/-- `req->core_line_count` (`/repo/src/engine/engine_discard.c:157-159`). -/
def Conf.count (c : Conf) (handled : Nat) : Nat :=
  c.line (c.addr handled + c.bytes handled - 1) - c.first handled + 1

/-- `start_bit` of map entry `i` (`/repo/src/utils/utils_cache_line.h:190-197`). -/
def Conf.startBit (c : Conf) (handled i : Nat) : Nat :=
  if i = 0 then c.addr handled / 512 % c.S else 0

/-- `end_bit` of map entry `i` (`/repo/src/utils/utils_cache_line.h:191-205`). -/
def Conf.endBit (c : Conf) (handled i : Nat) : Nat :=
  if i = c.count handled - 1 then (c.addr handled + c.bytes handled - 1) / 512 % c.S else c.S - 1

/-- Capacity of `req->map`: one entry for every line of the request if the pool had a request of that size
(`pooled`, `/repo/src/ocf_request.c:220-238`), else as allocated by `ocf_req_alloc_map_discard`
(`/repo/src/ocf_request.c:328-347`). -/
def Conf.capacity (c : Conf) (pooled : Bool) : Nat :=
  let last := c.line (c.sector * 512 + c.nr * 512 - 1)
  if pooled then last - c.line (c.sector * 512) + 1
  else if c.nr * 512 ≤ maxTrim then last - c.line (c.sector * 512) + 1
  else c.line (c.sector * 512 + maxTrim - 1) - c.line (c.sector * 512) + 1

/-- Cache contents by core line and sector of the line: the status bits
(`/repo/src/metadata/metadata_collision.h:26-35`) and whether the line is mapped. -/
structure Cache where
  mapped : Nat → Bool
  valid : Nat → Nat → Bool
  dirty : Nat → Nat → Bool

/-- `ocf_purge_map_info` (`/repo/src/utils/utils_cache_line.h:170-215`) with
`_ocf_purge_cache_line_sec` (`/repo/src/utils/utils_cache_line.h:154-162`): the bits of every entry that was
mapped are cleared; a line without valid sectors is unmapped if nobody waits for it
(`/repo/src/utils/utils_cache_line.c:10-43`, `waiters`). -/
def Conf.purge (c : Conf) (handled : Nat) (hit waiters : Nat → Bool) (s : Cache) : Cache :=
  let sel := fun l b => decide (c.first handled ≤ l) && decide (l < c.first handled + c.count handled) &&
    hit (l - c.first handled) && decide (c.startBit handled (l - c.first handled) ≤ b) &&
    decide (b ≤ c.endBit handled (l - c.first handled))
  let valid := fun l b => s.valid l b && !sel l b
  { mapped := fun l => s.mapped l && ((List.range c.S).any (valid l) || waiters l ||
      !(decide (c.first handled ≤ l) && decide (l < c.first handled + c.count handled) &&
        hit (l - c.first handled)))
    valid := valid
    dirty := fun l b => s.dirty l b && !sel l b }

/-- Where the request is in `/repo/src/engine/engine_discard.c:22-198`. -/
inductive Phase where
  /-- `_ocf_discard_step` is to run (`/repo/src/engine/engine_discard.c:145-198`) -/
  | step
  /-- the lines are locked by somebody else (`/repo/src/engine/engine_discard.c:185-188`) -/
  | wait
  /-- `_ocf_discard_step_do` between the purge and its own completion, or later the metadata flush alone
  (`/repo/src/engine/engine_discard.c:94-137`) -/
  | work
  /-- flush of the cache device (`/repo/src/engine/engine_discard.c:39-57`) -/
  | flushCache
  /-- discard of the core (`/repo/src/engine/engine_discard.c:29-37`) -/
  | core
  | done
deriving DecidableEq

/-- State of the request (`/repo/src/engine/engine_discard.c:75-92`). The fields after `refs` are ghost: whether a lock
error, an error of a metadata flush that ends before `_ocf_discard_step_do`, or any error happened, and the
ranges discarded on the core. -/
structure St where
  cache : Cache
  phase : Phase
  handled : Nat
  hit : Nat → Bool
  main : Bool
  flush : Bool
  remaining : Nat
  locked : Bool
  completed : Nat
  reported : Bool
  refs : Nat
  lockErr : Bool
  lost : Bool
  failed : Bool
  cored : List (Nat × Nat)

/-- `ocf_engine_mapped_count` is not zero (`/repo/src/engine/engine_common.h:99-102`). -/
def Conf.anyHit (c : Conf) (handled : Nat) (hit : Nat → Bool) : Bool :=
  (List.range (c.count handled)).any hit

/-- `_ocf_discard_complete_req` (`/repo/src/engine/engine_discard.c:22-27`): `ocf_req_complete`
(`/repo/src/ocf_core.c:210-218`) drops one reference, the engine another. -/
def St.complete (s : St) (err : Bool) : St :=
  { s with phase := .done, completed := s.completed + 1, reported := err, refs := s.refs - 2 }

/-- `_ocf_discard_finish_step` (`/repo/src/engine/engine_discard.c:61-73`). -/
def Conf.finish (c : Conf) (s : St) : St :=
  { s with
    handled := s.handled + c.bytes s.handled / 512
    phase := if s.handled + c.bytes s.handled / 512 < c.nr then .step
      else if c.vol then .core else .flushCache }

/-- `_ocf_discard_step_complete` (`/repo/src/engine/engine_discard.c:75-92`). -/
def Conf.stepComplete (c : Conf) (s : St) (err : Bool) : St :=
  let s := { s with remaining := s.remaining - 1 }
  if s.remaining ≠ 0 then s
  else
    let s := { s with locked := false }
    if err then s.complete true else c.finish s

/-- Start of `_ocf_discard_step_do` (`/repo/src/engine/engine_discard.c:94-119`); `flush` tells whether
`req->info.flush_metadata` is set. -/
def Conf.begin (c : Conf) (s : St) (waiters : Nat → Bool) (flush : Bool) : St :=
  if c.anyHit s.handled s.hit then
    { s with
      cache := c.purge s.handled s.hit waiters s.cache
      phase := .work, main := true, flush := flush
      remaining := if flush then 2 else 1
      refs := s.refs + 1 }
  else { s with phase := .work, main := true, flush := false, remaining := 1, refs := s.refs + 1 }

/-- Steps of the request (`/repo/src/engine/engine_discard.c:22-198`), and of the others (`env`). -/
inductive Step (c : Conf) (env : Cache → Cache → Prop) : St → St → Prop where
  /-- other requests -/
  | env (s : St) (k : Cache) : env s.cache k → Step c env s { s with cache := k }
  /-- lookup and lock (`/repo/src/engine/engine_discard.c:165-180`), all locks granted or none needed -/
  | lockOk (s : St) (w : Nat → Bool) (f : Bool) : s.phase = .step →
      Step c env s (c.begin { s with
        hit := fun i => s.cache.mapped (c.first s.handled + i)
        locked := c.anyHit s.handled fun i => s.cache.mapped (c.first s.handled + i) } w f)
  /-- some line is locked by somebody else (`/repo/src/engine/engine_discard.c:185-188`) -/
  | lockWait (s : St) : s.phase = .step →
      c.anyHit s.handled (fun i => s.cache.mapped (c.first s.handled + i)) = true →
      Step c env s { s with
        hit := fun i => s.cache.mapped (c.first s.handled + i), phase := .wait }
  /-- the lock fails for lack of memory (`/repo/src/engine/engine_discard.c:189-193`) -/
  | lockErr (s : St) : s.phase = .step →
      c.anyHit s.handled (fun i => s.cache.mapped (c.first s.handled + i)) = true →
      Step c env s (c.finish { s with
        hit := fun i => s.cache.mapped (c.first s.handled + i), lockErr := true, failed := true })
  /-- all locks granted later (`/repo/src/engine/engine_discard.c:139-143`) -/
  | resume (s : St) (w : Nat → Bool) (f : Bool) : s.phase = .wait →
      Step c env s (c.begin { s with locked := true } w f)
  /-- end of `_ocf_discard_step_do` (`/repo/src/engine/engine_discard.c:130-137`) -/
  | mainEnd (s : St) : s.phase = .work → s.main = true →
      Step c env s
        (let t := c.stepComplete { s with main := false } false
         { t with refs := t.refs - 1 })
  /-- end of the metadata flush (`/repo/src/engine/engine_discard.c:116-118`) -/
  | flushEnd (s : St) (err : Bool) : s.phase = .work → s.flush = true →
      Step c env s (c.stepComplete { s with flush := false, lost := s.lost || (err && s.main), failed := s.failed || err } err)
  /-- end of the flush of the cache device (`/repo/src/engine/engine_discard.c:39-49`) -/
  | cacheFlushed (s : St) (err : Bool) : s.phase = .flushCache →
      Step c env s (if err then St.complete { s with failed := true } true
        else { s with phase := .core })
  /-- the core discard, of the whole range (`/repo/src/engine/engine_discard.c:29-37`), and its end -/
  | coreEnd (s : St) (err : Bool) : s.phase = .core →
      Step c env s (St.complete { s with
        failed := s.failed || err, cored := (c.sector * 512, c.nr * 512) :: s.cored } err)

/-- State after `ocf_core_volume_submit_discard` (`/repo/src/ocf_core.c:362-404`) has called
`ocf_engine_hndl_discard_req` (`/repo/src/engine/cache_engine.c:242-247`): one reference of the I/O, one of the submission, one of the engine. -/
def init (k : Cache) : St :=
  ⟨k, .step, 0, fun _ => false, false, false, 0, false, 0, false, 3, false, false, false, []⟩

/-- What `ocf_core_volume_submit_discard` (`/repo/src/ocf_core.c:362-404`) does before the engine: error
reported at once, request handed to the engine, or direct to core; with the number of references then held.
-/
inductive Submit where
  | refused (refs : Nat)
  | engine (refs : Nat)
  | direct (refs : Nat)
deriving DecidableEq

/-- `ocf_core_volume_submit_discard` (`/repo/src/ocf_core.c:362-404`); `bad` stands for the checks of
`/repo/src/ocf_core.c:370-385`. -/
def submit (bad d2c noMem : Bool) : Submit :=
  if bad then .refused 1
  else if d2c then .direct 3
  else if noMem then .refused 2
  else .engine 3

/-! Zeroing of one line (`/repo/src/engine/engine_zero.c`), which nothing calls. -/

/-- `to_state` of `ocf_metadata_flush_mark` (`/repo/src/metadata/metadata.h:24-27`). -/
inductive Mark where
  | valid
  | invalid
  | clean
  | dirty
deriving DecidableEq

/-- `req->info.flush_metadata` after `_raw_ram_flush_mark` (`/repo/src/metadata/metadata_raw.c:428-436`). -/
def flushMark (m : Mark) (flush : Bool) : Bool := if m = .dirty ∨ m = .clean then true else flush

/-- `ocf_zero_map_info` (`/repo/src/engine/engine_zero.c:54-92`) marks the line invalid. -/
def zeroMark (flush : Bool) : Bool := flushMark .invalid flush

/-- The calls of `req->complete` caused by `_ocf_zero_do` (`/repo/src/engine/engine_zero.c:95-117`): one from
the metadata flush, whose result is `err`, if there is one, and one from the direct call. Each ends in
`ocf_zero_purge` (`/repo/src/engine/engine_zero.c:20-36`) or in the error path
(`/repo/src/engine/engine_zero.c:38-52`). -/
def zeroEnds (flush err : Bool) : List Bool :=
  (if zeroMark flush then [err] else []) ++ [false]

end Verif.Discard
