/-!
Choice of an id for a new core, `/repo/src/mngt/ocf_mngt_core.c`.
-/

namespace Verif.CoreId

/-- The loop of `_ffz`, `/repo/src/mngt/ocf_mngt_core.c:166-174`, with at most `n` rounds left: number
of low bits set in `word`. -/
def ffz : Nat → Nat → Nat
  | 0, _ => 0
  | n + 1, word => if word % 2 = 1 then ffz n (word / 2) + 1 else 0

/-- `bitmap[i] | ignore_mask`, `/repo/src/mngt/ocf_mngt_core.c:186-189`. -/
def masked (bitmap : Nat → Nat) (i : Nat) : Nat := bitmap i ||| (if i = 0 then 1 else 0)

/-- The loop over words of `_ocf_mngt_find_first_free_core`, `/repo/src/mngt/ocf_mngt_core.c:185-192`,
from word `i` on with at most `n` rounds left; `max` is `OCF_CORE_MAX`. The complement of a word is
taken within 64 bits. -/
def scan (max : Nat) (bitmap : Nat → Nat) : Nat → Nat → Nat
  | 0, _ => max
  | n + 1, i =>
    if i * 64 < max then
      if 2 ^ 64 - 1 - masked bitmap i ≠ 0 then min max (i * 64 + ffz 64 (masked bitmap i))
      else scan max bitmap n (i + 1)
    else max

/-- `_ocf_mngt_find_first_free_core`, `/repo/src/mngt/ocf_mngt_core.c:176-199`. -/
def findFree (max : Nat) (bitmap : Nat → Nat) : Nat :=
  let ret := scan max bitmap (max + 1) 0
  if ret = max ∧ bitmap 0 % 2 = 0 then 0 else ret

/-- `ocf_mngt_find_free_core`, `/repo/src/mngt/ocf_mngt_core.c:201-216`, with `ocf_cache_get_core`,
`/repo/src/ocf_cache_priv.h:146-153`: `none` is `-OCF_ERR_TOO_MANY_CORES`. -/
def newId (max : Nat) (bitmap : Nat → Nat) : Option Nat :=
  let id := findFree max bitmap
  if max ≤ id then none else some id

/-- `env_bit_set` on the bitmap, `/repo/env/posix/ocf_env.h:568-574`, as done for a new core at
`/repo/src/mngt/ocf_mngt_core.c:468`. Simplification: bytes are taken together as 64-bit words,
lowest byte first. -/
def setBit (bitmap : Nat → Nat) (id : Nat) : Nat → Nat :=
  fun i => if i = id / 64 then bitmap i ||| 2 ^ (id % 64) else bitmap i

/-- `env_bit_clear` on the bitmap, `/repo/env/posix/ocf_env.h:576-583`, as done when a core is removed
at `/repo/src/mngt/ocf_mngt_common.c:122`. -/
def clearBit (bitmap : Nat → Nat) (id : Nat) : Nat → Nat :=
  fun i => if i = id / 64 then bitmap i &&& (2 ^ 64 - 1 - 2 ^ (id % 64)) else bitmap i

end Verif.CoreId
