/-!
How a request is laid over cache lines: core lines, sectors of each line, map information, and the
I/O sent to the cache.
-/

namespace Verif.Geometry

/-- The part of a request (`/repo/src/ocf_request.h:166-321`) and of the cache that gives the
geometry: line size `L` in bytes (`ocf_line_size`, `/repo/src/metadata/metadata_cache_line.h:9-12`),
start of the data on the cache volume (`metadata_offset`), address and length of the request and
the offset of its data in the buffer. -/
structure Req where
  L : Nat
  base : Nat
  addr : Nat
  bytes : Nat
  off : Nat
deriving Repr

/-- `core_line_first`, `/repo/src/ocf_request.c:210-218` (`ocf_bytes_2_lines` is a division,
`/repo/src/utils/utils_cache_line.h:29-33`). Addresses are natural numbers, not wrapped at 2^64. -/
def Req.first (r : Req) : Nat := r.addr / r.L

/-- `core_line_last`, `/repo/src/ocf_request.c:210-218`. -/
def Req.last (r : Req) : Nat := if r.bytes ≠ 0 then (r.addr + r.bytes - 1) / r.L else r.first

/-- `core_line_count`, `/repo/src/ocf_request.c:210-218`. -/
def Req.count (r : Req) : Nat := if r.bytes ≠ 0 then r.last - r.first + 1 else 1

/-- `ocf_line_sectors`, `/repo/src/metadata/metadata_cache_line.h:14-17`. -/
def Req.S (r : Req) : Nat := r.L / 512

/-- `ocf_map_line_start_sector`, `/repo/src/utils/utils_cache_line.h:217-226`. -/
def Req.startSec (r : Req) (i : Nat) : Nat := if i = 0 then r.addr / 512 % r.S else 0

/-- `ocf_map_line_end_sector`, `/repo/src/utils/utils_cache_line.h:228-237`, with
`ocf_line_end_sector`, `/repo/src/metadata/metadata_cache_line.h:19-22`. -/
def Req.endSec (r : Req) (i : Nat) : Nat :=
  if i = r.count - 1 then (r.addr + r.bytes - 1) / 512 % r.S else r.S - 1

/-! ### Map information -/

/-- `LOOKUP_HIT`, `LOOKUP_MISS`, `LOOKUP_REMAPPED`, `/repo/src/engine/cache_engine.h:14-16`. -/
inductive Status | miss | hit | remapped
deriving DecidableEq, Repr

/-- `struct ocf_map_info`, `/repo/src/ocf_request.h:72-103`, of a line: status and `coll_idx`;
`valid` tells if all requested sectors of the line are valid (`metadata_test_valid_sec`). -/
structure Entry where
  st : Status
  coll : Nat
  valid : Bool
deriving DecidableEq, Repr

/-- `struct ocf_req_info`, `/repo/src/ocf_request.h:36-70`.
Simplification: the dirty and repartition counts are left out. -/
structure Info where
  hit : Nat
  invalid : Nat
  insert : Nat
  seq : Nat
deriving DecidableEq, Repr

/-- `ocf_engine_clines_phys_cont`, `/repo/src/engine/engine_common.c:99-115`. -/
def physCont (m : Nat → Entry) (i : Nat) : Bool :=
  if (m i).st = .miss ∨ (m (i + 1)).st = .miss then false
  else decide ((m i).coll < (m (i + 1)).coll) && decide ((m i).coll + 1 = (m (i + 1)).coll)

/-- `ocf_engine_update_req_info`, `/repo/src/engine/engine_common.c:134-186`. -/
def updateInfo (m : Nat → Entry) (f : Info) (i : Nat) : Info :=
  let f := if (m i).st = .hit then
      (if (m i).valid then { f with hit := f.hit + 1 } else { f with invalid := f.invalid + 1 })
    else f
  let f := if (m i).st = .remapped then { f with insert := f.insert + 1 } else f
  if 0 < i ∧ physCont m (i - 1) = true then { f with seq := f.seq + 1 } else f

/-- `ocf_engine_patch_req_info`, `/repo/src/engine/engine_common.c:117-132`; `n` is the number of
lines. -/
def patchInfo (n : Nat) (m : Nat → Entry) (f : Info) (i : Nat) : Info :=
  let f := { f with insert := f.insert + 1 }
  let f := if 0 < i ∧ physCont m (i - 1) = true then { f with seq := f.seq + 1 } else f
  if i + 1 < n ∧ physCont m i = true then { f with seq := f.seq + 1 } else f

/-- The loop of `ocf_engine_lookup`, `/repo/src/engine/engine_common.c:211-252`, for the lines
`i, i+1, …, i+k-1`: entry `i` becomes `found i` (the answer of `ocf_engine_lookup_map_entry`, a hit
or a miss). -/
def lookup (found : Nat → Entry) : Nat → Nat → (Nat → Entry) × Info → (Nat → Entry) × Info
  | 0, _, s => s
  | k + 1, i, (m, f) =>
    let m := fun j => if j = i then found i else m j
    lookup found k (i + 1) (m, if (found i).st = .hit then updateInfo m f i else f)

/-- `find next unmapped cacheline in request`, `/repo/src/ocf_lru.c:732-736`, with `k` lines after
`i`. -/
def nextMiss (m : Nat → Entry) : Nat → Nat → Nat
  | 0, i => i
  | k + 1, i => if (m i).st ≠ .miss then nextMiss m k (i + 1) else i

/-- The loop of `ocf_lru_req_clines`, `/repo/src/ocf_lru.c:716-759`, as far as the request is
concerned: the cache lines found are given to the request's unmapped lines in turn
(`ocf_map_cache_line`, `/repo/src/engine/engine_common.c:310-329`). `none` is a failed assertion
(`/repo/src/ocf_lru.c:738,758`). -/
def assign (n : Nat) : List Nat → Nat → (Nat → Entry) × Info → Option ((Nat → Entry) × Info)
  | [], _, s => some s
  | c :: cs, i, (m, f) =>
    let i := nextMiss m (n - 1 - i) i
    if (m i).st ≠ .miss then none
    else
      let m' := fun j => if j = i then ⟨.remapped, c, (m i).valid⟩ else m j
      let f' := patchInfo n m' f i
      if i + 1 = n ∧ cs ≠ [] then none
      else assign n cs (i + 1) (m', f')

/-- `ocf_engine_is_sequential`, `/repo/src/engine/engine_common.h:132-136`. -/
def isSequential (n : Nat) (f : Info) : Bool :=
  decide (f.hit + f.insert = n) && decide (f.seq = n - 1)

/-- `ocf_engine_unmapped_count`, `/repo/src/engine/engine_common.h:111-115`. -/
def unmapped (n : Nat) (f : Info) : Nat := n - (f.hit + f.invalid + f.insert)

/-! ### I/O to the cache -/

/-- A call of `ocf_req_forward_cache_io` (as at `/repo/src/engine/engine_io.c:102-103`): address on
the cache volume, length, offset in the buffer. -/
structure Io where
  addr : Nat
  bytes : Nat
  off : Nat
deriving DecidableEq, Repr

/-- The inner loop of `ocf_engine_forward_cache_io_req`, `/repo/src/engine/engine_io.c:77-86`, with
`k` lines after `i`. Result: lines left, index, length and `addr_next`. -/
def extend (r : Req) (coll : Nat → Nat) (addr : Nat) :
    Nat → Nat → Nat → Nat → Nat × Nat × Nat × Nat
  | 0, i, bytes, next => (0, i, bytes, next)
  | k + 1, i, bytes, _ =>
    let next := coll (i + 1) * r.L + r.base
    if next ≠ addr + bytes then (k + 1, i, bytes, next)
    else extend r coll addr k (i + 1) (bytes + r.L) next

/-- Start of a chunk of consecutive lines, `/repo/src/engine/engine_io.c:60-75`: address and length
within the first line. -/
def chunkHead (r : Req) (coll : Nat → Nat) (i next : Nat) : Nat × Nat :=
  let addr := if next ≠ 0 then next else coll i * r.L + r.base
  if i = 0 then (addr + r.addr % r.L, r.L - r.addr % r.L) else (addr, r.L)

/-- Length of a chunk that ends with the last line if `k` is 0, `/repo/src/engine/engine_io.c:88-96`.
-/
def chunkLen (r : Req) (k bytes total : Nat) : Nat :=
  let bytes := if k = 0 then bytes - (r.L - (r.addr + r.bytes) % r.L) % r.L else bytes
  min bytes (r.bytes - total)

/-- The loop of `ocf_engine_forward_cache_io_req`, `/repo/src/engine/engine_io.c:59-105`, with `k`
lines after `i`; `none` is a failed assertion (`/repo/src/engine/engine_io.c:97,108`). The first
argument bounds the number of rounds; `none` is also the answer if it is too small. -/
def ioLoop (r : Req) (coll : Nat → Nat) : Nat → Nat → Nat → Nat → Nat → Option (List Io)
  | 0, _, _, _, _ => none
  | fuel + 1, k, i, total, next =>
    let h := chunkHead r coll i next
    let e := extend r coll h.1 k i h.2 next
    let bytes := chunkLen r e.1 e.2.2.1 total
    if bytes = 0 then none
    else
      let rest :=
        if e.1 = 0 then (if total + bytes ≠ r.bytes then none else some [])
        else ioLoop r coll fuel (e.1 - 1) (e.2.1 + 1) (total + bytes) e.2.2.2
      rest.map (⟨h.1, bytes, r.off + total⟩ :: ·)

/-- `ocf_engine_forward_cache_io_req`, `/repo/src/engine/engine_io.c:36-111`. -/
def forwardReq (r : Req) (m : Nat → Entry) (f : Info) : Option (List Io) :=
  if isSequential r.count f then
    some [⟨r.base + (m 0).coll * r.L + r.addr % r.L, r.bytes, r.off⟩]
  else ioLoop r (fun i => (m i).coll) r.count (r.count - 1) 0 0 0

/-- `ocf_engine_forward_cache_io`, `/repo/src/engine/engine_io.c:15-34`: `size` bytes from offset
`o` of the request. -/
def forwardPart (r : Req) (coll : Nat → Nat) (o size : Nat) : Io :=
  let seek := r.addr % r.L
  ⟨r.base + coll ((o + seek) / r.L) * r.L + (o + seek) % r.L, size, r.off + o⟩

/-! ### Write-only reads: valid sectors of the cache over what was read from the core -/

/-- Maximal runs of equal bits: what the loop at `/repo/src/engine/engine_wo.c:105-114` cuts the
sectors of a line into. -/
def runs : List Bool → List (Bool × Nat)
  | [] => []
  | b :: bs =>
    match runs bs with
    | [] => [(b, 1)]
    | (b', n) :: rs => if b = b' then (b, n + 1) :: rs else (b, 1) :: (b', n) :: rs

/-- Local variables of `ocf_read_wo_cache_do`, `/repo/src/engine/engine_wo.c:54-64`: the open I/O if `io`, its
start, the offset reached, the last cache line, and the I/Os sent, latest first. -/
structure Wo where
  io : Bool
  start : Nat
  offset : Nat
  phys : Nat
  out : List Io

/-- `ocf_read_wo_cache_io` and `io = false`, `/repo/src/engine/engine_wo.c:44-50`. -/
def Wo.send (r : Req) (coll : Nat → Nat) (w : Wo) : Wo :=
  { w with io := false, out := forwardPart r coll w.start (w.offset - w.start) :: w.out }

/-- One round of the loop over runs of sectors, `/repo/src/engine/engine_wo.c:105-141`, for a run of
`n` sectors, valid or not. -/
def Wo.run (r : Req) (coll : Nat → Nat) (w : Wo) (x : Bool × Nat) : Wo :=
  let w := if w.io && !x.1 then w.send r coll else w
  let w := if !w.io && x.1 then { w with io := true, start := w.offset } else w
  { w with offset := w.offset + 512 * x.2 }

/-- One round of the loop over lines, `/repo/src/engine/engine_wo.c:70-142`; `bit s` tells if sector
`s` of the line is valid, `hit` if the line is mapped. A missing or fully valid line is one run
(`/repo/src/engine/engine_wo.c:88-98`). -/
def Wo.line (r : Req) (coll : Nat → Nat) (hit : Nat → Bool) (bit : Nat → Nat → Bool) (w : Wo)
    (i : Nat) : Wo :=
  let s := r.startSec i
  let n := r.endSec i - s + 1
  let phys := if hit i then coll i else w.phys
  let w' := if w.io && decide (w.phys + 1 ≠ phys) then w.send r coll else w
  let bits := (List.range' s n).map (bit i)
  let rs := if !hit i then [(false, n)]
    else if bits.all (· == true) then [(true, n)] else runs bits
  rs.foldl (Wo.run r coll) { w' with phys := phys }

/-- `ocf_read_wo_cache_do`, `/repo/src/engine/engine_wo.c:52-151`: the I/Os in the order sent. -/
def woRead (r : Req) (coll : Nat → Nat) (hit : Nat → Bool) (bit : Nat → Nat → Bool) : List Io :=
  let w := (List.range r.count).foldl (Wo.line r coll hit bit) ⟨false, 0, 0, 0, []⟩
  (if w.io then w.send r coll else w).out.reverse

end Verif.Geometry
