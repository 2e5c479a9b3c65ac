import Verif.Model.Bits
import Verif.Model.Collision
import Verif.Model.Parallelize

/-!
Model of rebuilding the metadata after a dirty shutdown: the 32 shards that go through all cache lines
of the collision section read from the device.
Source: `/repo/src/mngt/ocf_mngt_cache.c`.
-/

namespace Verif.Recovery

open Verif.Bits Verif.Collision Verif.Parallelize

/-- State of a shard's handler (`/repo/src/mngt/ocf_mngt_cache.c:579-639`). -/
inductive Status
  | run
  | ok
  | err
  deriving DecidableEq

/-- A shard: lines left, `free_lines` and `context->shard[shard_id].core[core_id].lines`
(`/repo/src/mngt/ocf_mngt_cache.c:526-545`, `/repo/src/mngt/ocf_mngt_cache.c:584-594`). -/
structure Shard where
  todo : List Nat
  free : Nat
  lines : Nat → Nat
  st : Status

/-- Metadata in memory. `part` is the partition id of each line (`PARTITION_DEFAULT` = 0,
`PARTITION_FREELIST` = `OCF_USER_IO_CLASS_MAX` + 1 = 34, `/repo/src/metadata/metadata_partition.h:12-14`, written by
`ocf_metadata_set_partition_id`). `freeL i`, `cleanL i`, `dirtyL i`: the lines in LRU list `i` of the
free pool and of the default partition. `sumLines`, `sumFree`: the totals `context->core[].lines` and
`context->free_lines` (`/repo/src/mngt/ocf_mngt_cache.c:526-545`). -/
structure State (w : Nat) where
  table : Table
  bits : Nat → LineBits w
  part : Nat → Nat
  freeL : Nat → List Nat
  cleanL : Nat → List Nat
  dirtyL : Nat → List Nat
  shard : Nat → Shard
  sumLines : Nat → Nat
  sumFree : Nat

/-- `metadata_init_status_bits` (`/repo/src/metadata/metadata_status.h:47-52`). -/
def initBits {w : Nat} (l : LineBits w) : Option (LineBits w) :=
  match clearBits l.dirty 0 (w - 1), clearBits l.valid 0 (w - 1) with
  | some (d, _), some (v, _) => some ⟨v, d⟩
  | _, _ => none

/-- Result of handling a line: go on, error (`-OCF_ERR_INVAL`), or a failed assertion
(`/repo/src/mngt/ocf_mngt_cache.c:579-639`). -/
inductive Res (w : Nat)
  | ok (s : State w)
  | refuse
  | bug

/-- Replace one shard (`/repo/src/mngt/ocf_mngt_cache.c:526-545`). -/
def setShard {w : Nat} (s : State w) (i : Nat) (x : Shard) : State w := { s with shard := upd s.shard i x }

/-- `ocf_mngt_cline_reset_metadata` (`/repo/src/mngt/ocf_mngt_cache.c:547-556`) and
`ocf_lru_add_free` (`/repo/src/ocf_lru.c:1052-1059`). -/
def reset {w : Nat} (s : State w) (c : Nat) (b : LineBits w) : Res w :=
  match initBits b with
  | none => .bug
  | some b' => .ok { s with
      table := { s.table with core := upd s.table.core c noCore }
      bits := upd s.bits c b'
      part := upd s.part c 34
      freeL := upd s.freeL (c % 32) (c :: s.freeL (c % 32)) }

/-- `ocf_mngt_cline_rebuild_metadata` (`/repo/src/mngt/ocf_mngt_cache.c:558-577`) and `ocf_lru_add`
(`/repo/src/ocf_lru.c:239-260`). -/
def rebuild {w : Nat} (s : State w) (c : Nat) (k : Key) (b : LineBits w) : Res w :=
  match testBits b.dirty 0 (w - 1) false with
  | none => .bug
  | some d => .ok { s with
      table := add s.table k (hashFunc s.table k) c
      bits := upd s.bits c b
      part := upd s.part c 0
      dirtyL := if d then upd s.dirtyL (c % 32) (c :: s.dirtyL (c % 32)) else s.dirtyL
      cleanL := if d then s.cleanL else upd s.cleanL (c % 32) (c :: s.cleanL (c % 32)) }

/-- One round of the loop of `ocf_mngt_rebuild_metadata_handle` in shard `i` for line `c`
(`/repo/src/mngt/ocf_mngt_cache.c:594-629`). `valid` is `conf_meta->valid` of the cores. Changes made to
the bitmap of a line that is then refused are left out. -/
def line {w : Nat} (valid : Nat → Bool) (s : State w) (i c : Nat) : Res w :=
  let k := s.table.core c
  if check (s.bits c) = false ∨ k.1 > 4096 then .refuse
  else match clearValidIfClean (s.bits c) 0 (w - 1) with
    | none => .bug
    | some (b, any) =>
      let x := s.shard i
      if any = false ∨ k.1 = 4096 then
        reset (setShard s i { x with todo := x.todo.tail, free := x.free + 1 }) c b
      else if valid k.1 = false then .refuse
      else rebuild (setShard s i { x with todo := x.todo.tail, lines := upd x.lines k.1 (x.lines k.1 + 1) })
        c k b

/-- A step of some shard: the next line, or the end of the handler, which adds its counts to the totals
(`/repo/src/mngt/ocf_mngt_cache.c:579-639`). Simplification: a line is handled in one step; shards work
on different lines and LRU lists, and the bucket is changed under its lock
(`/repo/src/mngt/ocf_mngt_cache.c:569-572`). -/
inductive Step {w : Nat} (valid : Nat → Bool) : State w → State w → Prop
  | next (s t : State w) (i c : Nat) (r : List Nat) : i < 32 → (s.shard i).st = .run →
      (s.shard i).todo = c :: r → line valid s i c = .ok t → Step valid s t
  | refuse (s : State w) (i c : Nat) (r : List Nat) : i < 32 → (s.shard i).st = .run →
      (s.shard i).todo = c :: r → line valid s i c = .refuse →
      Step valid s (setShard s i { s.shard i with st := .err })
  | done (s : State w) (i : Nat) : i < 32 → (s.shard i).st = .run → (s.shard i).todo = [] →
      Step valid s { setShard s i { s.shard i with st := .ok } with
        sumLines := fun k => s.sumLines k + (s.shard i).lines k
        sumFree := s.sumFree + (s.shard i).free }

/-- What was read from the device: core line and bitmaps of every line, of the collision section
(`/repo/src/metadata/metadata.c:1299-1308`). -/
structure Disk (w : Nat) where
  core : Nat → Key
  bits : Nat → LineBits w

/-- State when the shards start: sections initialised (`/repo/src/mngt/ocf_mngt_cache.c:332-343`,
`/repo/src/metadata/metadata.c:821-923`), the collision section read, and the lines of each shard as in
`strideItems` (`/repo/src/mngt/ocf_mngt_cache.c:591-594`). -/
def start {w : Nat} (d : Disk w) (N H : Nat) (part : Nat → Nat) : State w :=
  { table := { init N H with core := fun c => if c < N then d.core c else noCore }
    bits := d.bits
    part
    freeL := fun _ => []
    cleanL := fun _ => []
    dirtyL := fun _ => []
    shard := fun i => ⟨strideItems N 32 i, 0, fun _ => 0, .run⟩
    sumLines := fun _ => 0
    sumFree := 0 }

/-- Counters set by `ocf_mngt_rebuild_metadata_finish` (`/repo/src/mngt/ocf_mngt_cache.c:641-678`):
`cached_clines` = `dirty_clines` of a core, `curr_size` of the default partition, `curr_size` of the free
pool. `cores` are the cores added. -/
structure Counters where
  lines : Nat → Nat
  partSize : Nat
  freeSize : Nat

/-- `ocf_mngt_rebuild_metadata_finish` (`/repo/src/mngt/ocf_mngt_cache.c:641-678`). -/
def finish {w : Nat} (s : State w) (cores : List Nat) : Counters :=
  ⟨s.sumLines, (cores.map s.sumLines).sum, s.sumFree⟩

end Verif.Recovery
