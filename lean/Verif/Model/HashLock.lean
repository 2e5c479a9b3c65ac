/-!
Model of the ordered locking of metadata hash buckets.
Sources: `/repo/src/metadata/metadata_misc.h`, `/repo/src/concurrency/ocf_metadata_concurrency.c`.
-/

namespace Verif.HashLock

/-- The parts of `struct ocf_request` and of the metadata lock that bucket locking reads:
`/repo/src/ocf_request.h` (`core_line_first`, `core_line_count`) and
`/repo/src/concurrency/ocf_metadata_concurrency.h` (`num_hash_entries`).
`coreOff` is the per-core constant `core_id * (entries / 32)` added by the hash function
(`/repo/src/metadata/metadata_misc.h:21-22`); it is an arbitrary number here, so 32-bit
wrap-around of that product is covered. -/
structure Req where
  numHash : Nat
  coreOff : Nat
  first : Nat
  count : Nat
deriving Repr, DecidableEq

/-- `ocf_metadata_hash_func`, `/repo/src/metadata/metadata_misc.h:15-23`.
Simplification: the 64-bit sum does not wrap (core lines are below 2^52). -/
def hashFunc (numHash coreOff coreLine : Nat) : Nat :=
  (coreLine + coreOff) % numHash

/-- `req->map[i].hash`, filled by `ocf_req_hash`, `/repo/src/ocf_request.c:428-437`: entry `i` holds the hash of core line `core_line_first + i`. -/
def Req.hashAt (r : Req) (i : Nat) : Nat :=
  hashFunc r.numHash r.coreOff (r.first + i)

/-- `_IS_MONOTONIC`, `/repo/src/concurrency/ocf_metadata_concurrency.c:392-393`.
Simplification: the 32-bit sum does not wrap. -/
def Req.isMonotonic (r : Req) : Bool :=
  decide (r.hashAt 0 + r.count ≤ r.numHash)

/-- `_MIN_HASH`, `/repo/src/concurrency/ocf_metadata_concurrency.c:396`. -/
def Req.minHash (r : Req) : Nat :=
  if r.isMonotonic then r.hashAt 0 else 0

/-- `_MAX_HASH`, `/repo/src/concurrency/ocf_metadata_concurrency.c:399-401`. -/
def Req.maxHash (r : Req) : Nat :=
  if r.isMonotonic then r.hashAt (r.count - 1) else r.numHash - 1

/-- `_HASH_COUNT`, `/repo/src/concurrency/ocf_metadata_concurrency.c:404`. -/
def Req.hashCount (r : Req) : Nat :=
  min r.count r.numHash

/-- `_HAS_GAP`, `/repo/src/concurrency/ocf_metadata_concurrency.c:407`. -/
def Req.hasGap (r : Req) : Bool :=
  decide (r.maxHash - r.minHash + 1 > r.hashCount)

/-- `_GAP_VAL`, `/repo/src/concurrency/ocf_metadata_concurrency.c:410`. -/
def Req.gapVal (r : Req) : Nat :=
  (r.maxHash - r.minHash + 1) - r.hashCount

/-- `_GAP_START`, `/repo/src/concurrency/ocf_metadata_concurrency.c:413`. -/
def Req.gapStart (r : Req) : Nat :=
  r.hashAt (r.count - 1)

/-- `_HASH_NEXT`, `/repo/src/concurrency/ocf_metadata_concurrency.c:416-417`. -/
def Req.hashNext (r : Req) (h : Nat) : Nat :=
  h + 1 + (if r.hasGap && h == r.gapStart then r.gapVal else 0)

/-- The body of `for_each_req_hash_asc` started at `h`,
`/repo/src/concurrency/ocf_metadata_concurrency.c:434-436`: the list of visited buckets. -/
def Req.iterFrom (r : Req) (h : Nat) : List Nat :=
  if h ≤ r.maxHash then h :: r.iterFrom (r.hashNext h) else []
termination_by r.maxHash + 1 - h
decreasing_by
  simp only [Req.hashNext]; omega

/-- `for_each_req_hash_asc`, `/repo/src/concurrency/ocf_metadata_concurrency.c:434-436`; this
is the sequence in which `ocf_hb_req_prot_lock_rd/wr` (`:460-494`) take the bucket locks. -/
def Req.lockOrder (r : Req) : List Nat :=
  r.iterFrom r.minHash

/-- `ocf_req_hash_in_range`, `/repo/src/concurrency/ocf_metadata_concurrency.c:444-458`, applied
to a core line with hash `h` (the caller's core line is hashed first, `:447-448`). -/
def Req.hashInRange (r : Req) (h : Nat) : Bool :=
  if !r.hasGap then
    decide (h ≥ r.minHash) && decide (h ≤ r.maxHash)
  else
    (decide (h ≥ r.minHash) && decide (h ≤ r.gapStart)) ||
    (decide (h > r.gapStart + r.gapVal) && decide (h ≤ r.maxHash))

end Verif.HashLock
