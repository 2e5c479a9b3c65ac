/-!
Pools of request memory in size classes, `/repo/env/posix/utils_mpool.c` and
`/repo/src/ocf_request.c`.
-/

namespace Verif.Mpool

/-- `struct env_mpool`, `/repo/env/posix/utils_mpool.c:9-27`: the highest order, header size, size of
an element and whether there is a fallback for larger sizes. The allocator of order `i` exists for
`i ≤ max` and `i < 8` (`env_mpool_max`, `/repo/env/posix/utils_mpool.h:14-25`). -/
structure Pool where
  max : Nat
  hdr : Nat
  elem : Nat
  fallback : Bool

/-- Size of the items of the allocator of order `i`, `/repo/env/posix/utils_mpool.c:57`; 32-bit
arithmetic. -/
def Pool.size (p : Pool) (i : Nat) : Nat := (p.hdr + p.elem * 2 ^ i) % 2 ^ 32

/-- Position of the lowest bit set, from 1 (`__builtin_ffs`, used at
`/repo/env/posix/utils_mpool.c:97`), looking at `n` bits. -/
def ffs : Nat → Nat → Nat
  | 0, _ => 0
  | n + 1, x => if x % 2 = 1 then 1 else if x = 0 then 0 else ffs n (x / 2) + 1

/-- `env_mpool_get_allocator`, `/repo/env/posix/utils_mpool.c:87-104`: the order of the allocator;
`none` if there is none. For 0 the code returns the constant `env_mpool_1`, that is a null pointer.
`31 - __builtin_clz(count)` is the binary logarithm. -/
def Pool.order (p : Pool) (count : Nat) : Option Nat :=
  if count = 0 then none
  else
    let idx := Nat.log2 count
    let idx := if ffs 32 count ≤ idx then idx + 1 else idx
    if 8 ≤ idx ∨ p.max < idx then none else some idx

/-- Where memory comes from: an allocator or `env_zalloc`, `/repo/env/posix/utils_mpool.c:114-118`. -/
inductive Block
  | item (order : Nat)
  | raw (bytes : Nat)
deriving DecidableEq, Repr

/-- `env_mpool_new_f`, `/repo/env/posix/utils_mpool.c:106-126`: the size of what is allocated and where
from; `none` is no memory. Simplification: the allocators themselves always succeed (a failure is
`none` in the callers). -/
def Pool.new (p : Pool) (count : Nat) : Option (Block × Nat) :=
  match p.order count with
  | some i => some (.item i, p.size i)
  | none =>
    if p.fallback then
      let n := (p.hdr + p.elem * count) % 2 ^ 32
      some (.raw n, n)
    else none

/-- `env_mpool_del`, `/repo/env/posix/utils_mpool.c:133-148`: the allocator the memory is given back
to (`none` in the first place is `env_free`), or failure. -/
def Pool.del (p : Pool) (count : Nat) : Option (Option Nat) :=
  match p.order count with
  | some i => some (some i)
  | none => if p.fallback then some none else none

/-- `ocf_req_sizeof_alock_status`, `/repo/src/ocf_request.c:48-60`. -/
def alockSize (lines : Nat) : Nat := ((lines + 7) / 8 + 7) / 8 * 8

/-- The pool of requests, `ocf_req_allocator_init`, `/repo/src/ocf_request.c:62-77`; `req` and `info`
are the sizes of `struct ocf_request` and `struct ocf_map_info`. -/
def reqPool (req info : Nat) : Pool :=
  { max := 7, hdr := req + alockSize (2 ^ 7), elem := info, fallback := false }

/-- A request as allocated: size and origin of its memory, `alloc_core_line_count`, and the offset of
the map and of the lock status if they are within the same memory (`map == __map`). Fields of
`struct ocf_request`, `/repo/src/ocf_request.h:166-321`. -/
structure Alloc where
  block : Block
  bytes : Nat
  allocCount : Nat
  inner : Option (Nat × Nat)
deriving DecidableEq, Repr

/-- Allocation in `ocf_req_new`, `/repo/src/ocf_request.c:220-238` (likewise `ocf_req_new_cache`,
`/repo/src/ocf_request.c:281-299`, and the I/O queue case of `ocf_req_new_cleaner`,
`/repo/src/ocf_request.c:133-155`). The map starts at the end of the structure. -/
def reqAlloc (req info count : Nat) : Option Alloc :=
  match (reqPool req info).new count with
  | some (b, n) => some ⟨b, n, count, some (req, req + count * info)⟩
  | none =>
    match (reqPool req info).new 1 with
    | some (b, n) => some ⟨b, n, 1, none⟩
    | none => none

/-- `ocf_req_alloc_map`, `/repo/src/ocf_request.c:308-326`: size of the separate map and the offset of
the lock status in it. -/
def mapAlloc (info count : Nat) : Nat × Nat := (count * info + alockSize count, count * info)

end Verif.Mpool
