/-!
Model of the layout of metadata and data on the cache device: the fixed segments, the search for the
number of cache lines, the place of the variable segments and the start of the data area.
Sources: `/repo/src/metadata/metadata.c`, `/repo/src/metadata/metadata_raw.c`.
-/

namespace Verif.Layout

/-- What the size of one segment depends on (`struct ocf_metadata_raw`,
`/repo/src/metadata/metadata_raw.h:59-97`): number of entries for a number of cache lines
(`ocf_metadata_get_entries`, `/repo/src/metadata/metadata.c:67-115`), size of an entry
(`ocf_metadata_get_element_size`, `/repo/src/metadata/metadata.c:120-190`), and whether two copies are kept
(`ocf_metadata_is_flapped`, `/repo/src/metadata/metadata.c:195-218`). -/
structure Seg where
  entries : Nat → Nat
  entrySize : Nat
  flapping : Bool

/-- `OCF_DIV_ROUND_UP` (`/repo/src/ocf_def_priv.h:19-24`) of a 64-bit number. -/
def divUp (x y : Nat) : Nat := (x + y - 1) / y

/-- `OCF_DIV_ROUND_UP` (`/repo/src/ocf_def_priv.h:19-24`) of a 32-bit number, whose sum wraps. -/
def divUp32 (x y : Nat) : Nat := (x + y - 1) % 2 ^ 32 / y

/-- `raw->entries_in_page` (`/repo/src/metadata/metadata.c:513-515`, `/repo/src/metadata/metadata.c:699-702`).
-/
def Seg.inPage (g : Seg) : Nat := 4096 / g.entrySize

/-- `raw->ssd_pages` (`/repo/src/metadata/metadata.c:527-528`, `/repo/src/metadata/metadata.c:290-291`). -/
def Seg.pages (g : Seg) (n : Nat) : Nat := divUp (g.entries n) g.inPage

/-- `_raw_ram_segment_size_on_ssd` (`/repo/src/metadata/metadata_raw.c:38-43`), the same as
`raw_dynamic_segment_size_on_ssd` (`/repo/src/metadata/metadata_raw_dynamic.c:41-46`). -/
def align (pages : Nat) : Nat := divUp pages 32 * 32 % 2 ^ 32

/-- `ocf_metadata_raw_size_on_ssd` (`/repo/src/metadata/metadata_raw.c:741-747`) through
`_raw_ram_size_on_ssd` (`/repo/src/metadata/metadata_raw.c:165-170`) or, for volatile metadata,
`raw_volatile_size_on_ssd` (`/repo/src/metadata/metadata_raw_volatile.c:15-18`). -/
def Seg.onSsd (vol : Bool) (g : Seg) (n : Nat) : Nat :=
  if vol then 0 else align (g.pages n) * (if g.flapping then 2 else 1) % 2 ^ 32

/-- The place of a segment (`/repo/src/metadata/metadata_raw.h:79-80`): first page, pages of one copy,
pages taken. -/
structure Region where
  start : Nat
  pages : Nat
  size : Nat
deriving DecidableEq

/-- The loops of `ocf_metadata_ctrl_init` (`/repo/src/metadata/metadata.c:497-532`) and
`ocf_metadata_calculate_metadata_size` (`/repo/src/metadata/metadata.c:274-295`): every segment starts
where the one before ends; `page` is a 32-bit counter. -/
def place (vol : Bool) (n base : Nat) : Nat → List Seg → List Region
  | _, [] => []
  | page, g :: gs => ⟨base + page, g.pages n, g.onSsd vol n⟩ ::
      place vol n base ((page + g.onSsd vol n) % 2 ^ 32) gs

/-- The page counter after these loops, `ctrl->count_pages_fixed` (`/repo/src/metadata/metadata.c:534`) or
`count_pages` (`/repo/src/metadata/metadata.c:294`). -/
def count (vol : Bool) (n : Nat) : Nat → List Seg → Nat
  | page, [] => page
  | page, g :: gs => count vol n ((page + g.onSsd vol n) % 2 ^ 32) gs

/-- The fixed segments in the order of `enum ocf_metadata_segment_id`
(`/repo/src/metadata/metadata_segment_id.h:18-26`). Sizes of the structures for a 64-bit machine:
`struct ocf_user_part_config` (`/repo/src/ocf_part.h:18-32`) 1040, `struct ocf_part_runtime_meta`
(`/repo/src/metadata/metadata.c:40-43`) 1552, `struct ocf_core_meta_config`
(`/repo/src/ocf_core_priv.h:30-58`) 128, `struct ocf_core_meta_runtime` (`/repo/src/ocf_core_priv.h:60-78`)
288, `struct ocf_metadata_uuid` (`/repo/src/ocf_core_priv.h:23-26`) 4096; the superblocks take a page each.
-/
def fixedSegs : List Seg :=
  [⟨fun _ => 1, 4096, false⟩, ⟨fun _ => 1, 4096, false⟩, ⟨fun _ => 32, 4096, false⟩,
   ⟨fun _ => 34, 1040, true⟩, ⟨fun _ => 35, 1552, false⟩, ⟨fun _ => 4096, 128, true⟩,
   ⟨fun _ => 4096, 288, false⟩, ⟨fun _ => 4096, 4096, true⟩]

/-- `ocf_metadata_status_sizeof` (`/repo/src/metadata/metadata.c:52-62`). -/
def statusSize (L : Nat) : Nat := L / 512 / 8 * 2

/-- The variable segments (`/repo/src/metadata/metadata_segment_id.h:29-38`); the first one is left out
when the cleaner is disabled (`/repo/src/metadata/metadata.c:694-697`). Sizes:
`struct cleaning_policy_meta` (`/repo/src/cleaning/cleaning.h:35-41`) 12, `struct ocf_lru_meta`
(`/repo/src/ocf_lru_structs.h:9-13`) 9, `struct ocf_metadata_map`
(`/repo/src/metadata/metadata_collision.h:26-35`) 10 and the status, `struct ocf_metadata_list_info`
(`/repo/src/metadata/metadata_collision.h:13-20`) 9, `ocf_cache_line_t` 4. -/
def varSegs (L : Nat) (noCleaner : Bool) : List Seg :=
  (if noCleaner then [] else [⟨fun n => n, 12, false⟩]) ++
  [⟨fun n => n, 9, false⟩, ⟨fun n => n, 10 + statusSize L, false⟩, ⟨fun n => n, 9, false⟩,
   ⟨fun n => divUp32 n 4, 4, false⟩]

/-- Arguments of `ocf_metadata_init_variable_size` (`/repo/src/metadata/metadata.c:642-644`), and
`metadata.is_volatile`. -/
structure Conf where
  size : Nat
  L : Nat
  noCleaner : Bool
  vol : Bool

/-- `ctrl->device_lines` (`/repo/src/metadata/metadata.c:659-668`). -/
def Conf.D (c : Conf) : Nat := c.size / c.L

/-- `ctrl->count_pages_fixed` (`/repo/src/metadata/metadata.c:534`). -/
def Conf.fixed (c : Conf) : Nat := count c.vol 0 0 fixedSegs

/-- `count_pages` for `n` cache lines, a 64-bit number cut to 32 bits for `ocf_metadata_get_entries`
(`/repo/src/metadata/metadata.c:274-295`). -/
def Conf.var (c : Conf) (n : Int) : Nat := count c.vol (n % 2 ^ 32).toNat 0 (varSegs c.L c.noCleaner)

/-- `diff_lines` computed in `/repo/src/metadata/metadata.c:319-328`: the division is unsigned, because
`line_size` is a 64-bit unsigned number. -/
def Conf.diff (c : Conf) (n : Int) : Int :=
  let bytes : Int := (c.D * c.L : Nat) - ((c.fixed + c.var n) % 2 ^ 32 * 4096 : Nat)
  bytes % 2 ^ 64 / c.L - n

/-- `ocf_metadata_calculate_exception_hndl` (`/repo/src/metadata/metadata.c:229-253`). -/
def accept (unused : Int) (D : Nat) : Bool :=
  if unused < 0 then false else decide (90 ≤ Int.tdiv ((D - unused) * 100) D)

/-- Result of `ocf_metadata_calculate_metadata_size` (`/repo/src/metadata/metadata.c:259-355`): number of lines and pages of the variable
segments, an error, or a failed assertion. -/
inductive Out where
  | ok (lines var : Nat)
  | error
  | bug
deriving DecidableEq

/-- After the loop (`/repo/src/metadata/metadata.c:347-354`). -/
def Conf.leave (c : Conf) (n : Int) : Out :=
  let lines := (n % 2 ^ 32).toNat
  if c.D < lines then .error else .ok lines (c.var n)

/-- The loop of `ocf_metadata_calculate_metadata_size` (`/repo/src/metadata/metadata.c:273-345`), with the
locals `i_diff`, `cache_lines`, `diff_lines`, `lowest_diff`. The first argument bounds the number of
rounds; the code ends the loop itself (`/repo/src/metadata/metadata.c:309-316`). The assertion is that of
`ocf_metadata_get_entries` (`/repo/src/metadata/metadata.c:71`). -/
def Conf.loop (c : Conf) : Nat → Nat → Int → Int → Int → Out
  | 0, _, _, _, _ => .error
  | fuel + 1, i, n, diff, lowest =>
    if n % 2 ^ 32 = 0 then .bug
    else if i ≥ 1000 ∧ accept diff c.D = true then c.leave n
    else if i > 2000 then .error
    else
      let d := c.diff n
      if 0 < d ∧ d = lowest then c.leave n
      else if d = 0 then c.leave n
      else c.loop fuel (i + 1) (n + d) d (if 0 < d ∧ d < lowest then d else lowest)

/-- `ocf_metadata_calculate_metadata_size` (`/repo/src/metadata/metadata.c:259-355`). -/
def Conf.calc (c : Conf) : Out := c.loop 2002 0 c.D 0 c.D

/-- `OCF_CACHE_SIZE_MIN` (`/repo/inc/ocf_def.h:35`). -/
def minSize : Nat := 40 * 2 ^ 20

/-- Attaching a device: `_ocf_mngt_attach_cache_device` refuses a device that is too small
(`/repo/src/mngt/ocf_mngt_cache.c:1005-1010`), `ocf_metadata_init_variable_size` one with too many lines
(`/repo/src/metadata/metadata.c:659-666`). -/
def Conf.attach (c : Conf) : Out :=
  if c.size < minSize then .error
  else if c.D ≥ 2 ^ 32 - 1 then .error
  else c.calc

/-- Places of all segments for a number of lines (`/repo/src/metadata/metadata.c:526-528`,
`/repo/src/metadata/metadata.c:289-291`). -/
def Conf.regions (c : Conf) (lines : Nat) : List Region :=
  place c.vol 0 0 0 fixedSegs ++ place c.vol lines c.fixed 0 (varSegs c.L c.noCleaner)

/-- `ocf_metadata_get_pages_count` (`/repo/src/metadata/metadata.c:952-961`), a 32-bit number. -/
def Conf.metaPages (c : Conf) (var : Nat) : Nat := (c.fixed + var) % 2 ^ 32

/-- `cache->device->metadata_offset` (`/repo/src/metadata/metadata.c:792-793`): the product has the type of
`PAGE_SIZE`, of `bits` bits; it is an `int` in `/repo/env/posix/ocf_env.h:45`, so that `bits` is 32. -/
def Conf.offset (c : Conf) (bits var : Nat) : Nat := c.metaPages var * 4096 % 2 ^ bits

/-- The segments in the order in which they are placed (`/repo/src/metadata/metadata_segment_id.h:17-40`). -/
def Conf.segs (c : Conf) : List Seg := fixedSegs ++ varSegs c.L c.noCleaner

/-- Address in bytes of entry `k` in copy `copy` of a segment: the page is that of `_RAW_RAM_PAGE`
(`/repo/src/metadata/metadata_raw.c:73-77`) in the copy selected by `flapping_idx`
(`/repo/src/metadata/metadata_raw.c:339-340`, `/repo/src/metadata/metadata_raw.c:414-415`); a page holds its
entries one after the other (`/repo/src/metadata/metadata_raw.c:473-504`). -/
def entryAddr (r : Region) (g : Seg) (n copy k : Nat) : Nat :=
  (r.start + align (g.pages n) * copy + k / g.inPage) * 4096 + k % g.inPage * g.entrySize

/-- Address of the data of a cache line (`/repo/src/engine/engine_io.c:62-65`,
`/repo/src/utils/utils_cleaner.c:573-575`). -/
def Conf.lineAddr (c : Conf) (bits var line : Nat) : Nat := c.offset bits var + line * c.L

end Verif.Layout
