/-!
# Model of the recency lists (`/repo/src/ocf_lru.c`)

`end_marker` is `none`.  Counters (`uint32_t`) are natural numbers.  The lists are changed under
the LRU lock of the line (`OCF_METADATA_LRU_WR_LOCK`), so every operation is one atomic step.
-/

namespace Verif.Lru

/-- `struct ocf_lru_meta`.  `/repo/src/ocf_lru_structs.h:9-13`. -/
structure Meta where
  prev : Option Nat
  next : Option Nat
  hot : Bool
  deriving DecidableEq, Repr

/-- `struct ocf_lru_list`.  `/repo/src/ocf_lru_structs.h:15-22`. -/
structure LList where
  numNodes : Nat
  head : Option Nat
  tail : Option Nat
  numHot : Nat
  lastHot : Option Nat
  trackHot : Bool
  deriving DecidableEq, Repr

/-- All nodes (`ocf_metadata_get_lru`), one list and whether an `ENV_BUG_ON` fired.
`/repo/src/ocf_lru_structs.h:9-22`. -/
structure LS where
  m : Nat → Meta
  l : LList
  bug : Bool

/-- `_lru_init`.  `/repo/src/ocf_lru.c:800-808`. -/
def initList (trackHot : Bool) : LList := ⟨0, none, none, 0, none, trackHot⟩

/-- Store to a node (`ocf_metadata_get_lru` returns a pointer, used e.g. in
`/repo/src/ocf_lru.c:80-81`). -/
def setM (m : Nat → Meta) (i : Nat) (x : Meta) : Nat → Meta := fun j => if j = i then x else m j

/-- `balance_update_last_hot`; second component is the pivot.
`/repo/src/ocf_lru.c:26-58`. -/
def balanceUpdateLastHot (s : LS) (change : Int) : LS × Option Nat :=
  if change > 0 then
    match s.l.lastHot with
    | none => ({ s with l := { s.l with lastHot := s.l.head }
                        bug := s.bug || change != 1 }, s.l.head)
    | some k => ({ s with l := { s.l with lastHot := (s.m k).next }
                          bug := s.bug || change != 1 || (s.m k).next == none }, (s.m k).next)
  else if change < 0 then
    match s.l.lastHot with
    | none => ({ s with bug := true }, none)
    | some k => ({ s with l := { s.l with lastHot := (s.m k).prev }
                          bug := s.bug || change != -1 }, some k)
  else (s, none)

/-- `balance_lru_list`.  `/repo/src/ocf_lru.c:64-82`. -/
def balance (s : LS) : LS :=
  if s.l.trackHot = false then s
  else
    let target := s.l.numNodes / 2
    let change : Int := (target : Int) - (s.l.numHot : Int)
    let r := balanceUpdateLastHot { s with l := { s.l with numHot := target } } change
    match r.2 with
    | none => r.1
    | some p => { r.1 with m := setM r.1.m p { r.1.m p with hot := decide (change ≥ 0) } }

/-- `add_lru_head_nobalance`.  `/repo/src/ocf_lru.c:85-130`. -/
def addHeadNoBalance (s : LS) (c : Nat) : LS :=
  if s.l.numNodes = 0 then
    { s with
      m := setM s.m c ⟨none, none, false⟩
      l := { s.l with head := some c, tail := some c, numNodes := 1 } }
  else
    match s.l.head with
    | none => { s with bug := true }
    | some h =>
      let m1 := setM s.m c ⟨none, some h, s.l.trackHot⟩
      let m2 := setM m1 h { m1 h with prev := some c }
      { s with
        m := m2
        l := { s.l with
          lastHot := if s.l.trackHot = true ∧ (m2 h).hot = false then some c else s.l.lastHot
          numHot := if s.l.trackHot then s.l.numHot + 1 else s.l.numHot
          head := some c
          numNodes := s.l.numNodes + 1 } }

/-- `add_lru_head`.  `/repo/src/ocf_lru.c:132-137`. -/
def addHead (s : LS) (c : Nat) : LS := balance (addHeadNoBalance s c)

/-- Part of `remove_update_ptrs` that unlinks the node.  `/repo/src/ocf_lru.c:144-167`. -/
def unlinkNode (s : LS) (c : Nat) : LS :=
  match (s.m c).prev, (s.m c).next with
  | none, none => { s with l := { s.l with head := none, tail := none } }
  | none, some n => { s with l := { s.l with head := some n }
                             m := setM s.m n { s.m n with prev := none } }
  | some p, none => { s with l := { s.l with tail := some p }
                             m := setM s.m p { s.m p with next := none } }
  | some p, some n =>
    let m1 := setM s.m p { s.m p with next := some n }
    { s with m := setM m1 n { m1 n with prev := some p } }

/-- `remove_update_ptrs`.  `/repo/src/ocf_lru.c:140-171`. -/
def removeUpdatePtrs (s : LS) (c : Nat) : LS :=
  let s1 := unlinkNode s c
  if s1.l.lastHot = some c then { s1 with l := { s1.l with lastHot := (s.m c).prev } } else s1

/-- `remove_lru_list_nobalance`.  `/repo/src/ocf_lru.c:174-200`. -/
def removeNoBalance (s : LS) (c : Nat) : LS :=
  let node := s.m c
  let isHead := s.l.head == some c
  let isTail := s.l.tail == some c
  let bug := isHead == (node.prev != none) || isTail == (node.next != none)
  let s1 := removeUpdatePtrs s c
  { m := setM s1.m c ⟨none, none, false⟩
    l := { s1.l with
      numNodes := s1.l.numNodes - 1
      numHot := if node.hot then s1.l.numHot - 1 else s1.l.numHot }
    bug := s1.bug || bug }

/-- `ocf_lru_remove_locked`.  `/repo/src/ocf_lru.c:202-207`. -/
def remove (s : LS) (c : Nat) : LS := balance (removeNoBalance s c)

/-- `ocf_lru_set_hot`.  `/repo/src/ocf_lru.c:209-216`. -/
def setHot (s : LS) (c : Nat) : LS := balance (addHeadNoBalance (removeNoBalance s c) c)

/-- Key of one list: partition id, list index, clean list or dirty list
(`/repo/src/ocf_lru.c:229-237`, `/repo/src/ocf_part.h:34-37`). -/
structure Key where
  part : Nat
  idx : Nat
  clean : Bool
  deriving DecidableEq, Repr

/-- `PARTITION_FREELIST`, i.e. `OCF_USER_IO_CLASS_MAX + 1` with 33 classes
(`/repo/inc/ocf_cfg.h:24`).
`/repo/src/metadata/metadata_partition.h:14`. -/
def freeId : Nat := 34

/-- `OCF_NUM_LRU_LISTS`.  `/repo/src/ocf_space.h:13`. -/
def numLru : Nat := 32

/-- The lists of all partitions, the partition id and dirtiness of every cache line
(`metadata_test_dirty`), and `curr_size` of every partition.
`/repo/src/ocf_part.h:34-37`, `/repo/src/metadata/metadata_partition.c:11-24`. -/
structure Cache where
  m : Nat → Meta
  lists : Key → LList
  part : Nat → Nat
  dirty : Nat → Bool
  size : Nat → Int
  bug : Bool

/-- `ocf_lru_get_list`: the free partition has clean lists only.  `/repo/src/ocf_lru.c:229-237`. -/
def getKey (part idx : Nat) (clean : Bool) : Key :=
  ⟨part, idx, clean || part == freeId⟩

/-- `lru_get_cline_list`.  `/repo/src/ocf_lru.c:239-253`. -/
def Cache.keyOf (s : Cache) (c : Nat) : Key := getKey (s.part c) (c % numLru) (!s.dirty c)

/-- Apply a list operation to one list.  The `ocf_lru_list` is passed by pointer
(`/repo/src/ocf_lru.c:202-207`). -/
def Cache.on (s : Cache) (k : Key) (f : LS → LS) : Cache :=
  let r := f ⟨s.m, s.lists k, s.bug⟩
  { s with m := r.m, lists := fun k' => if k' = k then r.l else s.lists k', bug := r.bug }

/-- `ocf_lru_move`.  `/repo/src/ocf_lru.c:262-267`. -/
def Cache.move (s : Cache) (c : Nat) (src dst : Key) : Cache :=
  (s.on src (fun x => remove x c)).on dst (fun x => addHead x c)

/-- `ocf_lru_repart_locked` with the current partition of the line as source.
`/repo/src/ocf_lru.c:269-284`. -/
def Cache.repart (s : Cache) (c dst : Nat) : Cache :=
  let src := s.part c
  let s1 := s.move c (getKey src (c % numLru) (!s.dirty c)) (getKey dst (c % numLru) (!s.dirty c))
  { s1 with
    part := fun x => if x = c then dst else s1.part x
    size := fun p => s1.size p - (if p = src then 1 else 0) + (if p = dst then 1 else 0) }

/-- Update of the recency of a line within its list (`ocf_lru_set_hot` in
`lru_iter_eviction_next`, `/repo/src/ocf_lru.c:479`). -/
def Cache.touch (s : Cache) (c : Nat) : Cache := s.on (s.keyOf c) (fun x => setHot x c)

/-- `ocf_lru_hot_cline`.  `/repo/src/ocf_lru.c:765-798`. -/
def Cache.hotLine (s : Cache) (c : Nat) : Cache :=
  if (s.m c).hot then s
  else
    let l := s.lists (s.keyOf c)
    let b := ((s.m c).next == none && l.tail != some c) ||
      ((s.m c).prev == none && l.head != some c)
    { s with bug := s.bug || b }.touch c

/-- A line loses its last dirty sector: `set_cache_line_clean`
(`/repo/src/utils/utils_cache_line.c:107-127`) and `ocf_lru_clean_cline`
(`/repo/src/ocf_lru.c:831-845`). -/
def Cache.becomeClean (s : Cache) (c : Nat) : Cache :=
  { s with dirty := fun x => if x = c then false else s.dirty x }.move c
    (getKey (s.part c) (c % numLru) false) (getKey (s.part c) (c % numLru) true)

/-- A line gets its first dirty sector: `set_cache_line_dirty`
(`/repo/src/utils/utils_cache_line.c:146-170`) and `ocf_lru_dirty_cline`
(`/repo/src/ocf_lru.c:847-861`). -/
def Cache.becomeDirty (s : Cache) (c : Nat) : Cache :=
  { s with dirty := fun x => if x = c then true else s.dirty x }.move c
    (getKey (s.part c) (c % numLru) true) (getKey (s.part c) (c % numLru) false)

/-- `metadata_clear_dirty` of a line already moved to the free list, in
`ocf_metadata_sparse_cache_line`.  `/repo/src/metadata/metadata_misc.c:31-34`. -/
def Cache.forgetDirty (s : Cache) (c : Nat) : Cache :=
  { s with dirty := fun x => if x = c then false else s.dirty x }

/-- `ocf_lru_init` for all partitions: hotness is tracked in all lists but the free ones.
`/repo/src/ocf_lru.c:810-829`. -/
def Cache.fresh (m : Nat → Meta) : Cache :=
  { m := m, lists := fun k => initList (k.part != freeId), part := fun _ => freeId
    dirty := fun _ => false, size := fun _ => 0, bug := false }

/-- One line put on a list at start of the cache.  `none`: on the free list
(`/repo/src/ocf_lru.c:900-902`, `/repo/src/mngt/ocf_mngt_cache.c:550-555`);
`some p`: a dirty line kept by recovery, on the list of partition `p`
(`/repo/src/mngt/ocf_mngt_cache.c:565-576`, `/repo/src/ocf_lru.c:255-260`). -/
def Cache.place (s : Cache) (c : Nat) (to : Option Nat) : Cache :=
  match to with
  | none =>
    { s with part := fun x => if x = c then freeId else s.part x
             dirty := fun x => if x = c then false else s.dirty x }.on
      (getKey freeId (c % numLru) true) (fun x => addHeadNoBalance x c)
  | some p =>
    let s1 := { s with part := fun x => if x = c then p else s.part x
                       dirty := fun x => if x = c then true else s.dirty x }
    let s2 := { s1 with m := setM s1.m c ⟨none, none, false⟩ }
    s2.on (s2.keyOf c) (fun x => addHead x c)

/-- All lines placed in some order, then `curr_size` set from the counted lines.
`/repo/src/ocf_lru.c:890-918`, `/repo/src/mngt/ocf_mngt_cache.c:596-674`.  With `to` always
`none` this is `ocf_lru_populate`; otherwise it is recovery. -/
def Cache.fill (s : Cache) (order : List Nat) (to : Nat → Option Nat) : Cache :=
  let r := order.foldl (fun s c => s.place c (to c)) s
  { r with size := fun p =>
      (order.countP (fun c => p == (to c).getD freeId) : Nat) }

end Verif.Lru
