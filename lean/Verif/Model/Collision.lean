import Verif.Lemma.Common

/-!
Model of the mapping from core lines to cache lines: hash buckets and collision chains.
Sources: `/repo/src/metadata/metadata_collision.c`, `/repo/src/metadata/metadata_misc.h`,
`/repo/src/engine/engine_common.c`, `/repo/src/metadata/metadata.c`.
-/

namespace Verif.Collision

/-- A core line: core id and core line number (`core_id`, `core_line` of `struct ocf_map_info`,
`/repo/src/ocf_request.h:72-97`). -/
abbrev Key := Nat × Nat

/-- `OCF_CORE_MAX`, `/repo/inc/ocf_def.h:63` and `/repo/inc/ocf_cfg.h:18-20`. -/
def coreMax : Nat := 4096

/-- The core information of an unmapped line: `OCF_CORE_MAX, ULLONG_MAX`,
`/repo/src/metadata/metadata_collision.c:166-167`. -/
def noCore : Key := (coreMax, 2 ^ 64 - 1)

/-- The metadata sections used for lookup: `lines` is `collision_table_entries` (also the end
marker of chains), `buckets` is `hash_table_entries`, `hash` the section
`metadata_segment_hash` (`/repo/src/metadata/metadata.c:1525-1546`), `next`, `prev` the
fields of `struct ocf_metadata_list_info` (`/repo/src/metadata/metadata_collision.h:13-20`) and
`core` `struct ocf_metadata_map` (`/repo/src/metadata/metadata_collision.h:26-31`).
`bug` is raised by a failed `ENV_BUG_ON`.
Simplifications: the raw accessors do not fail for an index in range; a cache line number has
no width. -/
structure Table where
  lines : Nat
  buckets : Nat
  hash : Nat → Nat
  next : Nat → Nat
  prev : Nat → Nat
  core : Nat → Key
  bug : Bool

/-- Write one entry of a metadata section (`ocf_metadata_raw_wr_access`,
`/repo/src/metadata/metadata_raw.h:236-240`). -/
def upd {α : Type} (f : Nat → α) (i : Nat) (x : α) : Nat → α := fun j => if j = i then x else f j

/-- `ocf_metadata_hash_func`, `/repo/src/metadata/metadata_misc.h:15-23`, with the 32-bit
product and the 64-bit sum. -/
def hashFunc (t : Table) (k : Key) : Nat :=
  ((k.2 + (k.1 * (t.buckets / 32)) % 2 ^ 32) % 2 ^ 64) % t.buckets

/-- An empty table: `_ocf_init_collision_entry` `/repo/src/metadata/metadata.c:821-830` for every
line, and `ocf_metadata_init_hash_table_handle` `/repo/src/metadata/metadata.c:900-923` for every
bucket. -/
def init (lines buckets : Nat) : Table :=
  { lines, buckets, hash := fun _ => lines, next := fun _ => lines, prev := fun _ => lines,
    core := fun _ => noCore, bug := false }

/-- `ocf_metadata_add_to_collision`, `/repo/src/metadata/metadata_collision.c:93-125`. -/
def add (t : Table) (k : Key) (h c : Nat) : Table :=
  if ¬ h < t.buckets ∨ ¬ c < t.lines then { t with bug := true } else
  let old := t.hash h
  let prev1 := upd t.prev c t.lines
  { t with
    core := upd t.core c k
    next := upd t.next c old
    prev := if old ≠ t.lines then upd prev1 old c else prev1
    hash := upd t.hash h c }

/-- `ocf_map_cache_line`, `/repo/src/engine/engine_common.c:310-329`: the bucket is the one
stored in the map entry by the lookup. Only the collision table part. -/
def map (t : Table) (k : Key) (c : Nat) : Table := add t k (hashFunc t k) c

/-- `ocf_metadata_remove_from_collision`, `/repo/src/metadata/metadata_collision.c:130-168`. -/
def remove (t : Table) (c : Nat) : Table :=
  if ¬ c < t.lines then { t with bug := true } else
  let nx := t.next c
  let pv := t.prev c
  let next1 := if pv ≠ t.lines then upd t.next pv nx else t.next
  let prev1 := if nx ≠ t.lines then upd t.prev nx pv else t.prev
  let hf := hashFunc t (t.core c)
  if ¬ hf < t.buckets then { t with next := next1, prev := prev1, bug := true } else
  { t with
    hash := if t.hash hf = c then upd t.hash hf nx else t.hash
    next := upd next1 c t.lines
    prev := upd prev1 c t.lines
    core := upd t.core c noCore }

/-- The loop of `ocf_engine_lookup_map_entry`, `/repo/src/engine/engine_common.c:59-73`, started at
line `l`. The first argument limits the number of rounds: `none` means that the loop has not
ended by then, `some none` a miss, `some (some l)` a hit on line `l`. -/
def walk (t : Table) (k : Key) : Nat → Nat → Option (Option Nat)
  | 0, _ => none
  | n + 1, l =>
    if l = t.lines then some none
    else if k.1 = (t.core l).1 ∧ (t.core l).2 = k.2 then some (some l)
    else walk t k n (t.next l)

/-- `ocf_engine_lookup_map_entry`, `/repo/src/engine/engine_common.c:39-74`, cut off after `n`
rounds of the loop. -/
def lookup (t : Table) (k : Key) (n : Nat) : Option (Option Nat) :=
  walk t k n (t.hash (hashFunc t k))

/-- `_ocf_engine_check_map_entry`, `/repo/src/engine/engine_common.c:76-94`, for a map entry of
core line `k` whose lookup gave `hit` (`none` for `LOOKUP_MISS`): `true` when it returns 0.
Simplification: the assertion that a hit holds a line in range is not repeated here. -/
def check (t : Table) (k : Key) (hit : Option Nat) : Bool :=
  match hit with
  | none => true
  | some l => decide (k.1 = (t.core l).1 ∧ (t.core l).2 = k.2)

end Verif.Collision
