import Verif.Lemma.Common

/-!
Model of saving and loading the cache configuration: the superblock and the three checksummed
configuration segments, each of which has two places ("flapping") on the cache device.
Sources: `/repo/src/metadata/metadata_superblock.c`, `/repo/src/metadata/metadata_segment.c`.

`B` is the type of superblock contents before the `checksum` array except `flapping_idx`, `G` the type
of segment contents, `H` the type of checksums.
-/

namespace Verif.Superblock

/-- A configuration: superblock contents and the segments `part_config`, `core_config`, `core_uuid`
(`/repo/src/metadata/metadata_superblock.c:512-517`). -/
structure Cfg (B G : Type) where
  body : B
  seg : Fin 3 → G

/-- `struct ocf_superblock_config` (`/repo/src/metadata/metadata_superblock.h:18-61`): `flapping_idx`,
the other fields, the checksum of all these, and the checksums of the segments. -/
structure Sb (B H : Type) where
  idx : Nat
  body : B
  cs0 : H
  cs : Fin 3 → H

/-- The checksum functions (`env_crc32` over the fields before `checksum`,
`/repo/src/metadata/metadata_superblock.c:462-464`; `ocf_metadata_raw_checksum`,
`/repo/src/metadata/metadata_segment.c:97-108`) and the range checks on superblock and core
configuration (`/repo/src/metadata/metadata_superblock.c:104-247`, property C36). -/
structure Env (B G H : Type) where
  crcB : Nat → B → H
  crcS : Fin 3 → G → H
  ok : Cfg B G → Bool

variable {B G H : Type}

/-- Superblock for configuration `c` at index `i`, with all checksums computed
(`/repo/src/metadata/metadata_superblock.c:452-467`,
`/repo/src/metadata/metadata_segment.c:97-108`). -/
def mkSb (e : Env B G H) (i : Nat) (c : Cfg B G) : Sb B H :=
  ⟨i, c.body, e.crcB i c.body, fun k => e.crcS k (c.seg k)⟩

/-- `ocf_metadata_superblock_get_next_flapping_idx` and `ocf_metadata_flush_superblock_flap`
(`/repo/src/metadata/metadata_superblock.c:646-652`, `/repo/src/metadata/metadata_superblock.c:447`). -/
def nextIdx (i : Nat) : Nat := (i + 1) % 2

/-- `(flapping_idx - 1) % 2` on `unsigned` (`/repo/src/metadata/metadata_superblock.c:483`). -/
def prevIdx (i : Nat) : Nat := ((i + 2 ^ 32 - 1) % 2 ^ 32) % 2

/-- Stage of a save (`ocf_metadata_flush_sb_pipeline_props`,
`/repo/src/metadata/metadata_superblock.c:519-535`); `down` = power was lost, nothing loaded yet. -/
inductive Phase (B G : Type)
  | idle
  | seg (k : Nat) (c : Cfg B G)
  | flush1 (c : Cfg B G)
  | sbw (c : Cfg B G)
  | flush2 (c : Cfg B G)
  | down

/-- `idx` is `flapping_idx` in memory. On the device: the superblock `sb` as a read would return it
and `vers`, the versions of it that may survive a power failure (`[sb]` = all flushed); the segments
`slot i k` and whether they have unflushed writes. `cands`: the last configuration whose save was
reported successful (or that was loaded) and all that were attempted later.
(`/repo/src/metadata/metadata_superblock.h:18-61`, `/repo/src/metadata/metadata_raw.c:399-423`.) -/
structure State (B G H : Type) where
  idx : Nat
  sb : Sb B H
  vers : List (Sb B H)
  slot : Nat → Fin 3 → G
  dirty : Nat → Fin 3 → Bool
  phase : Phase B G
  cands : List (Cfg B G)

/-- What a superblock write that was interrupted or failed may leave, given the versions possible so
far. The checksum array lies within one 512-byte sector (offset 2140, 52 bytes, with the default limits
of `/repo/inc/ocf_cfg.h:18-24`; `/repo/src/metadata/metadata_superblock.h:18-61`), which the device
writes as a whole; everything else may be torn in any way. With one version there is no unflushed
write, so nothing changes. `torn = false`: the whole superblock is written as a unit. -/
def Mix (torn : Bool) (vers : List (Sb B H)) (x : Sb B H) : Prop :=
  ∃ v ∈ vers, x.cs0 = v.cs0 ∧ x.cs = v.cs ∧ (torn = false ∨ vers.length = 1 → x = v)

/-- What the device may contain after unflushed writes were dropped in part: flushed segments stay,
others become arbitrary (`/repo/src/metadata/metadata_superblock.c:503-510` flushes). -/
def Scramble (torn : Bool) (s : State B G H) (x : Sb B H) (d : Nat → Fin 3 → G) : Prop :=
  (∀ i k, s.dirty i k = false → d i k = s.slot i k) ∧ Mix torn s.vers x

/-- Write segment `k` at place `i` (`ocf_metadata_flush_segment`,
`/repo/src/metadata/metadata_segment.c:110-126`). -/
def setSlot (s : State B G H) (i : Nat) (k : Fin 3) (g : G) : Nat → Fin 3 → G :=
  fun i' k' => if i' = i ∧ k' = k then g else s.slot i' k'

/-- The segment written has not been flushed (`/repo/src/metadata/metadata_raw.c:399-423`). -/
def setDirty (s : State B G H) (i : Nat) (k : Fin 3) : Nat → Fin 3 → Bool :=
  fun i' k' => if i' = i ∧ k' = k then true else s.dirty i' k'

/-- Loading: `ocf_metadata_load_sb_pipeline_props` and its recovery variant
(`/repo/src/metadata/metadata_superblock.c:312-328`,
`/repo/src/metadata/metadata_superblock.c:378-394`): check the superblock, read the segments at the
index it contains, compare their checksums, check the contents. `none` = error. Not modelled: the
runtime segments, which the normal variant also loads and checks. -/
def load [DecidableEq H] (e : Env B G H) (s : State B G H) : Option (Cfg B G) :=
  if e.crcB s.sb.idx s.sb.body = s.sb.cs0 ∧ s.sb.idx ≤ 1 ∧
      (∀ k, e.crcS k (s.slot s.sb.idx k) = s.sb.cs k) ∧ e.ok ⟨s.sb.body, s.slot s.sb.idx⟩ = true then
    some ⟨s.sb.body, s.slot s.sb.idx⟩
  else none

/-- All events. `errs`: I/O errors may happen (a failed write leaves arbitrary contents, a failed flush
may drop unflushed writes); the save then ends in `ocf_metadata_flush_superblock_finish` with an error
(`/repo/src/metadata/metadata_superblock.c:469-488`). Management operations are serialised by the
cache lock, so there is one save at a time. Simplification: configurations being saved pass the
checks done when loading. -/
inductive Step [DecidableEq H] (e : Env B G H) (errs torn : Bool) : State B G H → State B G H → Prop
  | save (s : State B G H) (c : Cfg B G) : s.phase = .idle → e.ok c = true →
      Step e errs torn s { s with phase := .seg 0 c, cands := c :: s.cands }
  | segOk (s : State B G H) (k : Nat) (c : Cfg B G) (hk : k < 3) : s.phase = .seg k c →
      Step e errs torn s { s with
        slot := setSlot s (nextIdx s.idx) ⟨k, hk⟩ (c.seg ⟨k, hk⟩)
        dirty := setDirty s (nextIdx s.idx) ⟨k, hk⟩
        phase := .seg (k + 1) c }
  | segEnd (s : State B G H) (c : Cfg B G) : s.phase = .seg 3 c →
      Step e errs torn s { s with phase := .flush1 c }
  | flush1 (s : State B G H) (c : Cfg B G) : s.phase = .flush1 c →
      Step e errs torn s { s with
        idx := nextIdx s.idx, vers := [s.sb], dirty := fun _ _ => false, phase := .sbw c }
  | sbOk (s : State B G H) (c : Cfg B G) : s.phase = .sbw c →
      Step e errs torn s { s with
        sb := mkSb e s.idx c, vers := mkSb e s.idx c :: s.vers, phase := .flush2 c }
  | flush2 (s : State B G H) (c : Cfg B G) : s.phase = .flush2 c →
      Step e errs torn s { s with
        vers := [s.sb], dirty := fun _ _ => false, phase := .idle, cands := [c] }
  | segErr (s : State B G H) (k : Nat) (c : Cfg B G) (hk : k < 3) (g : G) : errs = true →
      s.phase = .seg k c →
      Step e errs torn s { s with
        slot := setSlot s (nextIdx s.idx) ⟨k, hk⟩ g
        dirty := setDirty s (nextIdx s.idx) ⟨k, hk⟩
        idx := prevIdx s.idx
        phase := .idle }
  | sbErr (s : State B G H) (c : Cfg B G) (x : Sb B H) : errs = true → s.phase = .sbw c →
      Mix torn (mkSb e s.idx c :: s.vers) x →
      Step e errs torn s { s with
        sb := x, vers := mkSb e s.idx c :: x :: s.vers, idx := prevIdx s.idx, phase := .idle }
  | flushErr (s : State B G H) (c : Cfg B G) (x : Sb B H) (d : Nat → Fin 3 → G) : errs = true →
      (s.phase = .flush1 c ∨ s.phase = .flush2 c) → Scramble torn s x d →
      Step e errs torn s { s with
        sb := x, vers := x :: s.vers, slot := d, idx := prevIdx s.idx, phase := .idle }
  | crash (s : State B G H) (x : Sb B H) (d : Nat → Fin 3 → G) : Scramble torn s x d →
      Step e errs torn s { s with
        sb := x, vers := [x], slot := d, dirty := fun _ _ => false, phase := .down }
  | load (s : State B G H) (c : Cfg B G) : s.phase = .down → load e s = some c →
      Step e errs torn s { s with idx := s.sb.idx, phase := .idle, cands := [c] }

/-- A cache whose configuration `c` was saved (`/repo/src/metadata/metadata_superblock.c:540-565`). -/
def start (e : Env B G H) (c : Cfg B G) : State B G H :=
  ⟨0, mkSb e 0 c, [mkSb e 0 c], fun _ => c.seg, fun _ _ => false, .idle, [c]⟩

end Verif.Superblock
