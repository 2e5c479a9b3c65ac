/-!
Model of the per-cache-line sector status bitmaps.
Sources: `/repo/src/metadata/metadata_bit.h`, `/repo/src/metadata/metadata_status.h`,
`/repo/src/utils/utils_cache_line.c`, `/repo/src/utils/utils_cache_line.h`.
`none` is the `ENV_BUG_ON` outcome.
-/

namespace Verif.Bits

/-- `_get_mask`, `/repo/src/metadata/metadata_bit.h:10-23` (and the 128-bit copy
`_get_mask_u128`, `:32-45`, which has 128 for 64). `W` is the width of the mask
computation: 64 for `u8`..`u64` maps, 128 for `u128` maps. -/
def getMask (W start stop : Nat) : Option (BitVec W) :=
  if start ≥ W then none
  else if stop ≥ W then none
  else if stop < start then none
  else some (((~~~(0#W)) >>> (start + (W - 1 - stop))) <<< start)

/-- Width of the mask computation for a bitmap type of `w` bits: the macros
`_get_mask_u8`..`_get_mask_u64` all are the 64-bit `_get_mask`,
`/repo/src/metadata/metadata_bit.h:25-30`. -/
def maskWidth (w : Nat) : Nat := if w ≤ 64 then 64 else 128

/-- `type mask = _get_mask_##type(start, stop)`, `/repo/src/metadata/metadata_bit.h:58`:
the mask truncated (C integer conversion) to the bitmap type. -/
def typeMask (w start stop : Nat) : Option (BitVec w) :=
  (getMask (maskWidth w) start stop).map (·.setWidth w)

/-- `struct ocf_metadata_map_##type`, `/repo/src/metadata/metadata_bit.h:47-52`, without the
core id/line part. -/
structure LineBits (w : Nat) where
  valid : BitVec w
  dirty : BitVec w
deriving DecidableEq, Repr

/-- `_ocf_metadata_test_##what##_##type`, `/repo/src/metadata/metadata_bit.h:55-83`. -/
def testBits {w} (map : BitVec w) (start stop : Nat) (all : Bool) : Option Bool :=
  (typeMask w start stop).map fun mask =>
    if all then decide (mask = (map &&& mask)) else decide (map &&& mask ≠ 0#w)

/-- `_ocf_metadata_test_out_##what##_##type`, `/repo/src/metadata/metadata_bit.h:85-105`. -/
def testOut {w} (map : BitVec w) (start stop : Nat) : Option Bool :=
  (typeMask w start stop).map fun mask => decide (map &&& ~~~mask ≠ 0#w)

/-- `_ocf_metadata_clear_##what##_##type`, `/repo/src/metadata/metadata_bit.h:107-129`:
new bitmap and "any bit left". -/
def clearBits {w} (map : BitVec w) (start stop : Nat) : Option (BitVec w × Bool) :=
  (typeMask w start stop).map fun mask =>
    let map' := map &&& ~~~mask
    (map', decide (map' ≠ 0#w))

/-- `_ocf_metadata_set_##what##_##type`, `/repo/src/metadata/metadata_bit.h:131-152`:
new bitmap and "any bit was set before". -/
def setBits {w} (map : BitVec w) (start stop : Nat) : Option (BitVec w × Bool) :=
  (typeMask w start stop).map fun mask => (map ||| mask, decide (map ≠ 0#w))

/-- `_ocf_metadata_test_and_set_##what##_##type`, `/repo/src/metadata/metadata_bit.h:154-187`. -/
def testAndSet {w} (map : BitVec w) (start stop : Nat) (all : Bool) : Option (BitVec w × Bool) :=
  (typeMask w start stop).map fun mask =>
    (map ||| mask, if all then decide (mask = (map &&& mask)) else decide (map &&& mask ≠ 0#w))

/-- `_ocf_metadata_test_and_clear_##what##_##type`,
`/repo/src/metadata/metadata_bit.h:189-222`. -/
def testAndClear {w} (map : BitVec w) (start stop : Nat) (all : Bool) : Option (BitVec w × Bool) :=
  (typeMask w start stop).map fun mask =>
    (map &&& ~~~mask, if all then decide (mask = (map &&& mask)) else decide (map &&& mask ≠ 0#w))

/-- `_ocf_metadata_clear_valid_if_clean_##type`, `/repo/src/metadata/metadata_bit.h:225-247`. -/
def clearValidIfClean {w} (l : LineBits w) (start stop : Nat) : Option (LineBits w × Bool) :=
  (typeMask w start stop).map fun mask =>
    let v := l.valid &&& ((mask &&& l.dirty) ||| ~~~mask)
    ({ l with valid := v }, decide (v ≠ 0#w))

/-- `_ocf_metadata_clear_dirty_if_invalid_##type`,
`/repo/src/metadata/metadata_bit.h:249-265`. -/
def clearDirtyIfInvalid {w} (l : LineBits w) (start stop : Nat) : Option (LineBits w) :=
  (typeMask w start stop).map fun mask =>
    { l with dirty := l.dirty &&& ((mask &&& l.valid) ||| ~~~mask) }

/-- `_ocf_metadata_check_##type`, `/repo/src/metadata/metadata_bit.h:267-282`. -/
def check {w} (l : LineBits w) : Bool := decide (l.dirty &&& ~~~l.valid = 0#w)

/-- `metadata_clear_dirty_sec_changed`, `/repo/src/metadata/metadata_status.h:170-182`:
new line, `sec_changed`, `*line_is_clean`. -/
def clearDirtySecChanged {w} (l : LineBits w) (start stop : Nat) :
    Option (LineBits w × Bool × Bool) := do
  let secChanged ← testBits l.dirty start stop false
  let (d, r) ← clearBits l.dirty start stop
  some ({ l with dirty := d }, secChanged, !r)

/-- `metadata_set_dirty_sec_changed`, `/repo/src/metadata/metadata_status.h:190-202`:
new line, `sec_changed`, `*line_was_dirty`. -/
def setDirtySecChanged {w} (l : LineBits w) (start stop : Nat) :
    Option (LineBits w × Bool × Bool) := do
  let t ← testBits l.dirty start stop true
  let (d, r) ← setBits l.dirty start stop
  some ({ l with dirty := d }, !t, r)

/-- `metadata_set_valid_sec_changed`, `/repo/src/metadata/metadata_status.h:294-300`. -/
def setValidSecChanged {w} (l : LineBits w) (start stop : Nat) : Option (LineBits w × Bool) := do
  let (v, r) ← setBits l.valid start stop
  some ({ l with valid := v }, !r)

/-- `metadata_clear_valid_sec_changed`, `/repo/src/metadata/metadata_status.h:326-342`:
new line, return value, `*line_remains_valid`. The last sector of the line is `w - 1`
(`ocf_line_end_sector`). -/
def clearValidSecChanged {w} (l : LineBits w) (start stop : Nat) :
    Option (LineBits w × Bool × Bool) := do
  let was ← testBits l.valid 0 (w - 1) false
  let (v, r) ← clearBits l.valid start stop
  some ({ l with valid := v }, was && !r, r)

/-- The status updates a cache line can undergo after it was created, as issued by the callers:
`valid` = `set_cache_line_valid` (`/repo/src/utils/utils_cache_line.c:76-90`, engines WT, BF),
`write` = valid then dirty (`/repo/src/engine/engine_wb.c:35-43`),
`clean` = `set_cache_line_clean` (`/repo/src/utils/utils_cache_line.c:92-132`),
`purge` = clean then invalid (`_ocf_purge_cache_line_sec`,
`/repo/src/utils/utils_cache_line.h:154-162`),
`evict` = whole line invalid, of a line without dirty sectors
(`ocf_lru_invalidate`, `/repo/src/ocf_lru.c:654-671`),
`sparse` = whole line invalid then whole line clean (`ocf_metadata_sparse_cache_line`,
`/repo/src/metadata/metadata_misc.c:22-36`),
`recover` = `metadata_clear_valid_if_clean` (`/repo/src/mngt/ocf_mngt_cache.c:609`). -/
inductive Update
  | valid (start stop : Nat)
  | write (start stop : Nat)
  | clean (start stop : Nat)
  | purge (start stop : Nat)
  | evict
  | sparse
  | recover

/-- Effect of one update on the bitmaps (see `Update` for the lines modelled). `evict` of a line
with a dirty sector is refused (`some` unchanged): eviction only takes lines from the clean list,
`/repo/src/ocf_lru.c:683-760`; that this is so is C13, not assumed silently here. -/
def apply {w} (l : LineBits w) : Update → Option (LineBits w)
  | .valid a b => (setValidSecChanged l a b).map (·.1)
  | .write a b => do
      let (l1, _) ← setValidSecChanged l a b
      let (l2, _) ← setDirtySecChanged l1 a b
      some l2
  | .clean a b => (clearDirtySecChanged l a b).map (·.1)
  | .purge a b => do
      let (l1, _) ← clearDirtySecChanged l a b
      let (l2, _) ← clearValidSecChanged l1 a b
      some l2
  | .evict =>
      if l.dirty = 0#w then (clearBits l.valid 0 (w - 1)).map fun r => { l with valid := r.1 }
      else some l
  | .sparse => do
      let (l1, _) ← clearValidSecChanged l 0 (w - 1)
      let (d, _) ← clearBits l1.dirty 0 (w - 1)
      some { l1 with dirty := d }
  | .recover => (clearValidIfClean l 0 (w - 1)).map (·.1)

/-- Bitmaps of a line after `metadata_init_status_bits`,
`/repo/src/metadata/metadata_status.h:47-52`. -/
def init (w : Nat) : LineBits w := ⟨0#w, 0#w⟩

end Verif.Bits
