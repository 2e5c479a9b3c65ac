/-!
Configuration of I/O classes, `/repo/src/mngt/ocf_mngt_io_class.c`.
-/

namespace Verif.IoClass

/-- A name (`/repo/src/ocf_part.h:19`): the characters before the terminating zero. -/
abbrev Name := List Nat

/-- `OCF_IO_CLASS_NAME_MAX`, `/repo/inc/ocf_def.h:306`. -/
def nameMax : Nat := 1024

/-- `OCF_USER_IO_CLASS_MAX`, `/repo/inc/ocf_cfg.h:24`. -/
def classMax : Nat := 33

/-- "Inactive", `/repo/src/utils/utils_user_part.c:185`. -/
def inactive : Name := [73, 110, 97, 99, 116, 105, 118, 101]

/-- "unclassified", `/repo/src/mngt/ocf_mngt_cache.c:188`. -/
def unclassified : Name := [117, 110, 99, 108, 97, 115, 115, 105, 102, 105, 101, 100]

/-- `struct ocf_user_part_config`, `/repo/src/ocf_part.h:18-32`, without the eviction flag (set by
sorting, see `Verif.Space.flagOf`). -/
structure Part where
  name : Name
  min : Nat
  max : Nat
  valid : Bool
  added : Bool
  prio : Int
  mode : Int
deriving DecidableEq

/-- The configuration: classes (in the metadata, reached by the pointers `user_parts[i].config`),
the number of valid ones (`valid_parts_no`, `/repo/src/metadata/metadata_superblock.h:40`), and the
list links of `cache->user_parts` (`lst_valid`, `/repo/src/ocf_part.h:87-93`) as the order of the
list. -/
structure St where
  part : Nat → Part
  validNo : Int
  order : List Nat

/-- Change of one class (assignments through `user_parts[id].config`, as at
`/repo/src/mngt/ocf_mngt_io_class.c:104-105`). -/
def St.upd (s : St) (id : Nat) (f : Part → Part) : St :=
  { s with part := fun i => if i = id then f (s.part id) else s.part i }

/-- One entry of the configuration asked for, `struct ocf_mngt_io_class_config`,
`/repo/inc/ocf_mngt.h:981-1006`; `name = none` is a null pointer. -/
structure Cfg where
  id : Nat
  max : Nat
  name : Option Name
  mode : Int
  prio : Int

/-- `ocf_user_part_set_valid`, `/repo/src/utils/utils_user_part.c:168-188`. -/
def setValid (s : St) (id : Nat) (v : Bool) : St :=
  if v != (s.part id).valid then
    if v then { s.upd id (fun p => { p with valid := true }) with validNo := s.validNo + 1 }
    else
      let clear := fun p : Part =>
        { p with valid := false, prio := 255, min := 0, max := 100, name := inactive }
      { s.upd id clear with validNo := s.validNo - 1 }
  else s

/-- `ocf_mngt_add_partition_to_cache`, `/repo/src/mngt/ocf_mngt_io_class.c:29-83`; `none` is an error,
`sort` is the effect of `ocf_user_part_sort` on the order. -/
def addPart (sort : (Nat → Part) → List Nat → List Nat) (s : St) (id : Nat) (name : Name)
    (min max : Nat) (prio : Int) (v : Bool) : Option St :=
  if classMax ≤ id then none
  else if (s.part id).valid then none
  else if max < min then none
  else if 100 < max then none
  else if nameMax ≤ name.length then none
  else if id ∈ s.order then none
  else
    let fill := fun p : Part =>
      { p with name := name, min := min, max := max, prio := prio, mode := 6 }
    let s := setValid (s.upd id fill) id v
    let s := { s with order := sort s.part (id :: s.order) }
    some (s.upd id fun p => { p with added := true })

/-- `__init_partitions`, `/repo/src/mngt/ocf_mngt_cache.c:182-203`, of the classes `ids` after the
default one; `none` is a failed assertion. -/
def initParts (sort : (Nat → Part) → List Nat → List Nat) (s : St) (ids : List Nat) : Option St := do
  let s ← addPart sort s 0 unclassified 0 100 255 true
  ids.foldlM (fun s i => addPart sort s i inactive 0 100 255 false) s

/-- `_ocf_mngt_count_user_parts_min_size`, `/repo/src/mngt/ocf_mngt_io_class.c:15-27`. -/
def sumMin (s : St) : Nat :=
  (s.order.map fun i => if (s.part i).valid then (s.part i).min else 0).sum

/-- `_ocf_mngt_set_partition_size`, `/repo/src/mngt/ocf_mngt_io_class.c:85-108`. -/
def setSize (s : St) (id min max : Nat) : Option St :=
  if max < min then none
  else if 100 < sumMin s + min then none
  else some (s.upd id fun p => { p with min := min, max := if 100 < max then 100 else max })

/-- `ocf_user_part_set_prio` and the assignment of the cache mode,
`/repo/src/mngt/ocf_mngt_io_class.c:193-194` (also 154-155), with
`/repo/src/utils/utils_user_part.h:21-26`. -/
def setPrioMode (s : St) (id : Nat) (prio mode : Int) : St :=
  s.upd id fun p => { p with prio := prio, mode := mode }

/-- `_ocf_mngt_io_class_configure`, `/repo/src/mngt/ocf_mngt_io_class.c:110-197`, with the flag of
success. The cache device is attached (`OCF_CHECK_NULL(cache->device)`). Names fit (checked before),
so the copy of the name does not fail. -/
def configure (s : St) (c : Cfg) (name : Name) : St × Bool :=
  if (s.part c.id).added = false then (s, false)
  else if name = [] then (s, false)
  else if c.id = 0 then
    if name ≠ (s.part 0).name then (s, false)
    else
      match setSize s 0 0 c.max with
      | none => (s, false)
      | some s => (setPrioMode s 0 c.prio c.mode, true)
  else
    let s := s.upd c.id fun p => { p with name := name }
    match setSize s c.id 0 c.max with
    | none => (s, false)
    | some s =>
      let s := if (s.part c.id).valid then s else setValid s c.id true
      (setPrioMode s c.id c.prio c.mode, true)

/-- `_ocf_mngt_io_class_remove`, `/repo/src/mngt/ocf_mngt_io_class.c:199-226`. -/
def remove (s : St) (c : Cfg) : St :=
  if c.id = 0 then s
  else if (s.part c.id).valid = false then s
  else setValid s c.id false

/-- `_ocf_mngt_io_class_edit`, `/repo/src/mngt/ocf_mngt_io_class.c:228-239`. -/
def edit (s : St) (c : Cfg) : St × Bool :=
  match c.name with
  | some name => configure s c name
  | none => (remove s c, true)

/-- `ocf_user_part_is_name_valid`, `/repo/src/utils/utils_user_part.h:160-179`; 44 and 34 are the comma
and the double quote. -/
def nameValid (name : Name) : Bool :=
  name.all (fun x => decide (32 ≤ x ∧ x ≤ 126 ∧ x ≠ 44 ∧ x ≠ 34)) && decide (name.length < nameMax)

/-- `ocf_user_part_is_prio_valid`, `/repo/src/utils/utils_user_part.h:136-146`. -/
def prioValid (p : Int) : Bool := decide (0 ≤ p ∧ p ≤ 255) || decide (p = -1)

/-- `_ocf_mngt_io_class_validate_cfg`, `/repo/src/mngt/ocf_mngt_io_class.c:241-276`. The largest mode
`ocf_cache_mode_max` is 6, `/repo/inc/ocf_def.h:153-179`. -/
def validate (c : Cfg) : Bool :=
  if classMax ≤ c.id then false
  else
    match c.name with
    | none => true
    | some name =>
      decide (-1 ≤ c.mode ∧ c.mode ≤ 6) && nameValid name && prioValid c.prio && decide (c.max ≤ 100)

/-- The loop of edits, `/repo/src/mngt/ocf_mngt_io_class.c:308-315`: stops at the first failure. -/
def editAll (s : St) : List Cfg → St × Bool
  | [] => (s, true)
  | c :: cs =>
    match edit s c with
    | (s, true) => editAll s cs
    | (s, false) => (s, false)

/-- `ocf_mngt_cache_io_classes_configure`, `/repo/src/mngt/ocf_mngt_io_class.c:278-330`. On failure
`cache->user_parts` is copied back (`/repo/src/mngt/ocf_mngt_io_class.c:319-323`): that array holds the
list links and the pointers to the configuration, not the configuration itself.
Simplification: the copy to `old_config` gets its memory. -/
def configureAll (sort : (Nat → Part) → List Nat → List Nat) (standby : Bool) (s : St)
    (cs : List Cfg) : St × Bool :=
  if standby then (s, false)
  else if cs.all validate = false then (s, false)
  else
    match editAll s cs with
    | (s', true) => ({ s' with order := sort s'.part s'.order }, true)
    | (s', false) => ({ s' with order := s.order }, false)

end Verif.IoClass
