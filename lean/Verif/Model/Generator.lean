/-!
Model of the bisect generator and of the initial layout of free cache lines.
Sources: `/repo/src/utils/utils_generator.c`, `/repo/src/ocf_lru.c`.
-/

namespace Verif.Generator

/-- `bitreverse32`, `/repo/src/utils/utils_generator.c:15-22`. -/
def bitreverse32 (x0 : BitVec 32) : BitVec 32 :=
  let x1 := ((x0 &&& 0xaaaaaaaa#32) >>> 1) ||| ((x0 &&& 0x55555555#32) <<< 1)
  let x2 := ((x1 &&& 0xcccccccc#32) >>> 2) ||| ((x1 &&& 0x33333333#32) <<< 2)
  let x3 := ((x2 &&& 0xf0f0f0f0#32) >>> 4) ||| ((x2 &&& 0x0f0f0f0f#32) <<< 4)
  let x4 := ((x3 &&& 0xff00ff00#32) >>> 8) ||| ((x3 &&& 0x00ff00ff#32) <<< 8)
  (x4 >>> 16) ||| (x4 <<< 16)

/-- `__builtin_clz` on 32 bits, used at `/repo/src/utils/utils_generator.c:41,183`;
`none` for 0 (undefined behaviour). -/
def clz32 (x : Nat) : Option Nat := if x = 0 then none else some (31 - x.log2)

/-- `struct ocf_generator_bisect_state`, `/repo/src/utils/utils_generator.h:11-14`. -/
structure State where
  curr : Nat
  limit : Nat
deriving Repr, DecidableEq

/-- `1 << (32 - clz)`, `/repo/src/utils/utils_generator.c:42,184`; `none` where the shift count
is 32 (undefined behaviour). Simplification: `1 << 31`, formally a signed overflow in C, is taken
as `2^31`. -/
def maplen (clz : Nat) : Option Nat := if clz = 0 then none else some (2 ^ (32 - clz))

/-- `ocf_generator_bisect_init`, `/repo/src/utils/utils_generator.c:34-46`. -/
def init (limit offset : Nat) : Option State := do
  let clz ← clz32 (limit - 1)
  let m ← maplen clz
  some { curr := offset * m / limit, limit := limit }

/-- `bitreverse32(generator->curr) >> clz`, `/repo/src/utils/utils_generator.c:187`. -/
def value (clz curr : Nat) : Nat := (bitreverse32 (BitVec.ofNat 32 curr) >>> clz).toNat

/-- The `do … while` loop of `ocf_generator_bisect_next`,
`/repo/src/utils/utils_generator.c:186-189`, with a bound on the number of rounds
(`none` = not finished; proved not to happen). Result: value and next `curr`. -/
def nextLoop (clz maplen limit : Nat) : Nat → Nat → Option (Nat × Nat)
  | 0, _ => none
  | fuel + 1, curr =>
    let v := value clz curr
    let curr' := (curr + 1) % maplen
    if v ≥ limit then nextLoop clz maplen limit fuel curr' else some (v, curr')

/-- `ocf_generator_bisect_next`, `/repo/src/utils/utils_generator.c:176-192`. -/
def next (s : State) : Option (Nat × State) := do
  let clz ← clz32 (s.limit - 1)
  let m ← maplen clz
  let (v, c) ← nextLoop clz m s.limit m s.curr
  some (v, { s with curr := c })

/-- `n` successive calls of the generator, as in the loop
`/repo/src/ocf_lru.c:892-895`. -/
def calls : Nat → State → Option (List Nat)
  | 0, _ => some []
  | n + 1, s => do
    let (v, s') ← next s
    let vs ← calls n s'
    some (v :: vs)

/-- `ocf_lru_populate_handle`, `/repo/src/ocf_lru.c:870-908`: the cache lines put on free list
`shardId`, in order of insertion. Simplification: no 32-bit wrap in `shard_id * portion` and
`idx * shards_cnt` (both stay below `entries + shards`, which fits). -/
def populate (entries shards shardId : Nat) : Option (List Nat) := do
  let portion := (entries + shards - 1) / shards
  let offset := shardId * portion / shards
  let g ← init portion offset
  let idxs ← calls portion g
  some ((idxs.map fun idx => idx * shards + shardId).filter fun cline => !decide (cline ≥ entries))

end Verif.Generator
