/-!
Model of reading and validating the superblock and the pipeline that loads it with its segments.
Sources: `/repo/src/metadata/metadata_superblock.c`, `/repo/src/metadata/metadata_segment.c`,
`/repo/src/metadata/metadata.c`.
-/

namespace Verif.SbValidate

/-- Fields of `struct ocf_superblock_config` (`/repo/src/metadata/metadata_superblock.h:18-61`), read
from the device, so with any values of their C types (enumerations are `int`s). Left out:
`curr_core_seq_no`, `cachelines`, the policy parameters and the checksums of other segments than the
superblock's own are in `rest`; nothing validates them. -/
structure Sb where
  cleanShutdown : UInt8
  dirtyFlushed : UInt8
  magic : UInt32
  version : UInt32
  flappingIdx : UInt32
  cacheMode : Int
  name : List UInt8
  partsNo : UInt32
  lineSize : UInt64
  coreCount : UInt32
  bitmap : Nat → Bool
  cleanerDisabled : Bool
  cleaning : Int
  promotion : Int
  rest : List UInt8
  checksum : UInt32

/-- Errors reported (`/repo/inc/ocf_err.h:15-129`). `other` is any error of a lower layer (I/O error,
out of memory). -/
inductive Err
  | noMetadata
  | metadataVer
  | crcMismatch
  | inval
  | other (n : Nat)
  deriving DecidableEq

/-- `CACHE_MAGIC_NUMBER` (`/repo/src/metadata/metadata_superblock.h:13`). -/
def magicNumber : UInt32 := 0x187E1CA6

/-- `strnlen` as in `env_strnlen` (`/repo/env/posix/ocf_env.h:103`). -/
def strnlen : List UInt8 → Nat → Nat
  | _, 0 => 0
  | [], _ => 0
  | b :: bs, n + 1 => if b = 0 then 0 else strnlen bs n + 1

/-- `ocf_cache_line_size_is_valid` (`/repo/src/utils/utils_cache_line.h:332-344`), sizes
`/repo/inc/ocf_def.h:253-283`. -/
def lineSizeOk (s : UInt64) : Bool :=
  s == 4096 || s == 8192 || s == 16384 || s == 32768 || s == 65536

/-- `ocf_metadata_validate_superblock` (`/repo/src/metadata/metadata_superblock.c:104-194`), check by
check; `none` = success. `ver` is `METADATA_VERSION()` of the running code
(`/repo/src/ocf_def_priv.h:40-41`), `crc` the checksum over the fields before `checksum`. -/
def validate (ver : UInt32) (crc : Sb → UInt32) (sb : Sb) : Option Err :=
  if sb.magic ≠ magicNumber then some .noMetadata
  else if ver ≠ sb.version then some .metadataVer
  else if crc sb ≠ sb.checksum then some .crcMismatch
  else if sb.cleanShutdown > 1 then some .inval
  else if sb.dirtyFlushed > 1 then some .inval
  else if sb.flappingIdx > 1 then some .inval
  else if sb.cacheMode < 0 ∨ sb.cacheMode ≥ 6 then some .inval
  else if strnlen sb.name sb.name.length ≥ 32 then some .inval
  else if sb.partsNo > 33 then some .inval
  else if lineSizeOk sb.lineSize = false then some .inval
  else if sb.coreCount > 4096 then some .inval
  else if sb.cleaning < 0 ∨ sb.cleaning ≥ 3 then some .inval
  else if sb.cleanerDisabled = true ∧ sb.cleaning ≠ 0 then some .inval
  else if sb.promotion < 0 ∨ sb.promotion ≥ 2 then some .inval
  else none

/-- `ocf_metadata_load_properties_cmpl` (`/repo/src/metadata/metadata.c:1725-1749`): result of the read
(`none` = read error `e`), then validation, then the properties, here the whole superblock. -/
def loadProperties (ver : UInt32) (crc : Sb → UInt32) (rd : Except Nat Sb) : Except Err Sb :=
  match rd with
  | .error e => .error (.other e)
  | .ok sb => match validate ver crc sb with
    | some e => .error e
    | none => .ok sb

/-- `struct ocf_metadata_probe_status` (`/repo/inc/ocf_metadata.h:57-72`). -/
structure ProbeStatus where
  cleanShutdown : Bool
  cacheDirty : Bool
  name : Option (List UInt8)
  cacheMode : Option Int
  lineSize : Option UInt64

/-- `ocf_metadata_probe_cmpl` (`/repo/src/metadata/metadata.c:1775-1807`): error (if any) and the status
(if any) given to the callback. Fields not yet set are `none`. -/
def probe (ver : UInt32) (rd : Except Nat Sb) : Option Err × Option ProbeStatus :=
  match rd with
  | .error e => (some (.other e), none)
  | .ok sb =>
    if sb.magic ≠ magicNumber then (some .noMetadata, none)
    else if sb.cleanShutdown > 1 then (some .inval, none)
    else if sb.dirtyFlushed > 1 then (some .inval, none)
    else if ver ≠ sb.version then
      (some .metadataVer, some ⟨sb.cleanShutdown ≠ 0, sb.dirtyFlushed = 0, none, none, none⟩)
    else
      (none, some ⟨sb.cleanShutdown ≠ 0, sb.dirtyFlushed = 0, some sb.name, some sb.cacheMode,
        some sb.lineSize⟩)

/-- Loop of `_ocf_metadata_validate_core_config` over the remaining core ids
(`/repo/src/metadata/metadata_superblock.c:214-247`). -/
def validateCores (bitmap valid : Nat → Bool) (id : Nat) : Nat → Option Err
  | 0 => none
  | n + 1 =>
    if bitmap id = true ∧ valid id = false then some .inval
    else if valid id = true ∧ bitmap id = false then some .inval
    else validateCores bitmap valid (id + 1) n

/-- Segments in use here (`enum ocf_metadata_segment_id`,
`/repo/src/metadata/metadata_segment_id.h:18-44`). -/
inductive Seg
  | sbConfig
  | sbRuntime
  | partConfig
  | partRuntime
  | coreConfig
  | coreUuid
  deriving DecidableEq

/-- `ocf_metadata_load_sb_store_segment_args` (`/repo/src/metadata/metadata_superblock.c:294-301`). -/
def storeArgs : List Seg := [.sbConfig, .sbRuntime, .partConfig, .partRuntime, .coreConfig]

/-- `ocf_metadata_load_sb_load_segment_args` and, for recovery,
`ocf_metadata_load_sb_recov_load_segment_args` (`/repo/src/metadata/metadata_superblock.c:303-310`,
`/repo/src/metadata/metadata_superblock.c:371-376`). -/
def loadArgs (recovery : Bool) : List Seg :=
  if recovery then [.partConfig, .coreConfig, .coreUuid]
  else [.sbRuntime, .partConfig, .partRuntime, .coreConfig, .coreUuid]

/-- `ocf_metadata_is_flapped` (`/repo/src/metadata/metadata.c:195-221`). -/
def flapped : Seg → Bool
  | .partConfig | .coreConfig | .coreUuid => true
  | _ => false

/-- Everything the pipeline depends on. Contents of segments have type `D`, whatever bytes they hold:
`sbOf` and `coreValid` decode the superblock and `core_config[id].valid`, `sum` is
`checksum[segment]` in the superblock (`/repo/src/metadata/metadata_superblock.c:611-618`), `crcSeg` is
`ocf_metadata_raw_checksum`, `rd s i` the result of reading place `i` of segment `s` (contents left in
memory and error, if any; `/repo/src/metadata/metadata_raw.c:323-347`), `alloc` tells if memory for
a copy is available. -/
structure Env (D : Type) where
  ver : UInt32
  sbOf : D → Sb
  crcSb : Sb → UInt32
  coreValid : D → Nat → Bool
  sum : D → Seg → Nat
  crcSeg : Seg → D → Nat
  rd : Seg → Nat → D × Option Nat
  alloc : Seg → Bool

/-- Assign one segment in memory (`METADATA_MEM_POOL`, `/repo/src/metadata/metadata_raw.c:323-347`). -/
def put {D : Type} (m : Seg → D) (s : Seg) (d : D) : Seg → D := fun s' => if s' = s then d else m s'

/-- Outcome of a part of the pipeline: memory, and go on / finish with an error / assertion failure
(`ENV_BUG_ON` at `/repo/src/metadata/metadata_raw.c:329`). -/
inductive Out (D : Type)
  | next (m : Seg → D)
  | fail (m : Seg → D) (e : Err)
  | bug

/-- Place to read segment `s` from (`/repo/src/metadata/metadata_segment.c:135-138`,
`/repo/src/metadata/metadata_superblock.c:638-644`). -/
def flapIdx {D : Type} (e : Env D) (m : Seg → D) (s : Seg) : Nat :=
  if flapped s then (e.sbOf (m .sbConfig)).flappingIdx.toNat else 0

/-- `ocf_metadata_load_segment` for each of a list of segments
(`/repo/src/metadata/metadata_segment.c:128-142`). -/
def loadSegs {D : Type} (e : Env D) : List Seg → (Seg → D) → Out D
  | [], m => .next m
  | s :: ss, m =>
    let idx := flapIdx e m s
    if (flapped s = true ∧ idx > 1) ∨ (flapped s = false ∧ idx ≠ 0) then .bug
    else match e.rd s idx with
      | (d, some err) => .fail (put m s d) (.other err)
      | (d, none) => loadSegs e ss (put m s d)

/-- `ocf_metadata_check_crc` for each of a list of segments
(`/repo/src/metadata/metadata_segment.c:74-95`). -/
def checkCrcs {D : Type} (e : Env D) : List Seg → (Seg → D) → Option Err
  | [], _ => none
  | s :: ss, m => if e.crcSeg s (m s) ≠ e.sum (m .sbConfig) s then some .crcMismatch else checkCrcs e ss m

/-- `ocf_metadata_store_segment` for each of a list of segments: the copies made so far, and an error if
memory ran out (`/repo/src/metadata/metadata_superblock.c:67-93`). -/
def store {D : Type} (e : Env D) (m : Seg → D) : List Seg → (Seg → Option D) → (Seg → Option D) × Option Err
  | [], c => (c, none)
  | s :: ss, c =>
    if e.alloc s then store e m ss (fun s' => if s' = s then some (m s) else c s')
    else (c, some (.other 0))

/-- `ocf_metadata_load_sb_restore` (`/repo/src/metadata/metadata_superblock.c:249-269`). -/
def restore {D : Type} (copy : Seg → Option D) (m : Seg → D) : Seg → D := fun s => (copy s).getD (m s)

/-- Steps after the copies were made (`/repo/src/metadata/metadata_superblock.c:312-328`,
`/repo/src/metadata/metadata_superblock.c:378-394`). -/
def body {D : Type} (e : Env D) (recovery : Bool) (m : Seg → D) : Out D :=
  match loadSegs e [.sbConfig] m with
  | .next m1 =>
    match validate e.ver e.crcSb (e.sbOf (m1 .sbConfig)) with
    | some err => .fail m1 err
    | none =>
      match loadSegs e (loadArgs recovery) m1 with
      | .next m2 =>
        match checkCrcs e (loadArgs recovery) m2 with
        | some err => .fail m2 err
        | none =>
          match validateCores (e.sbOf (m2 .sbConfig)).bitmap (e.coreValid (m2 .coreConfig)) 0 4096 with
          | some err => .fail m2 err
          | none => .next m2
      | r => r
  | r => r

/-- `ocf_metadata_load_superblock` and `ocf_metadata_load_superblock_recovery` with their finish
function (`/repo/src/metadata/metadata_superblock.c:271-292`,
`/repo/src/metadata/metadata_superblock.c:333-369`, `/repo/src/metadata/metadata_superblock.c:399-435`):
memory afterwards and the error given to the completion. `none` = assertion failure. -/
def load {D : Type} (e : Env D) (recovery : Bool) (m : Seg → D) : Option ((Seg → D) × Option Err) :=
  match store e m storeArgs (fun _ => none) with
  | (c, some err) => some (restore c m, some err)
  | (c, none) =>
    match body e recovery m with
    | .next m' => some (m', none)
    | .fail m' err => some (restore c m', some err)
    | .bug => none

end Verif.SbValidate
