import Verif.Model.Alru

/-! Model of the ACP cleaning policy, `/repo/src/cleaning/acp.c`: the chunks of the cores, the
buckets they are kept in, the choice of a chunk to clean and the collection of its lines.

The debug code (`:19-52`) and the log messages are left out, as are the parameters of the policy
(`:481-535`) and the hand-over of the collected lines to the cleaner (`:647-661`; C18). -/

namespace Verif.Acp

open Verif.Collision (upd)

/-- `ACP_CHUNK_SIZE`, `/repo/src/cleaning/acp.c:54`. -/
def chunkSize : Nat := 100 * 2 ^ 20

/-- `ACP_MAX_BUCKETS`, `/repo/src/cleaning/acp.c:62`. -/
def maxBuckets : Nat := 11

/-- `ACP_BUCKET_DEFAULTS`, `/repo/src/cleaning/acp.c:67-68`. -/
def defaults : List Nat := [0, 10, 20, 30, 40, 50, 60, 70, 80, 90, 100]

/-- `threshold` of bucket `i` for cache lines of `ls` bytes, `/repo/src/cleaning/acp.c:282-284`;
kept in 16 bits (`:104`). -/
def threshold (ls i : Nat) : Nat := (chunkSize / ls * defaults.getD i 0 / 100) % 2 ^ 16

/-- A chunk: the core and the number in the core, `/repo/src/cleaning/acp.c:95-97`. -/
abbrev Key := Nat × Nat

/-- `struct acp_chunk_info`, `/repo/src/cleaning/acp.c:93-100`. -/
structure Chunk where
  num : Nat
  bucket : Nat
  ts : Nat
deriving DecidableEq

/-- Change the record of one chunk, `/repo/src/cleaning/acp.c:739-762`. -/
def updK {α : Type} (f : Key → α) (k : Key) (v : α) : Key → α := fun j => if j = k then v else f j

/-- `struct acp_context`, `/repo/src/cleaning/acp.c:107-138`, and the `dirty` flags of the lines
(`acp_meta->dirty`).  `tab c` is `num_chunks[c]` if the array `chunk_info[c]` exists. -/
structure Ctx where
  ls : Nat
  tab : Nat → Option Nat
  total : Nat
  chunk : Key → Chunk
  list : Nat → List Key
  flag : Nat → Bool

/-- What is known about the `n` lines of the cache: core and core line of a mapped line, and whether
a sector of it is dirty; `/repo/src/cleaning/acp.c:166-173`, `:342`. -/
structure Lines where
  n : Nat
  at_ : Nat → Option (Nat × Nat)
  dirty : Nat → Bool

/-- The chunk of a core line, `/repo/src/cleaning/acp.c:183`.  The product is the byte offset in the
core, below `2 ^ 64`. -/
def chunkId (ls cl : Nat) : Nat := cl * ls / chunkSize

/-- `_acp_get_chunk`, `/repo/src/cleaning/acp.c:175-186`; `none` for a line that is not mapped. -/
def chunkOf (ls : Nat) (l : Lines) (c : Nat) : Option Key :=
  (l.at_ c).map fun (core, cl) => (core, chunkId ls cl)

/-! ## Buckets -/

/-- `list_del`: the chunk leaves the list it is on; `/repo/src/cleaning/acp.c:834`. -/
def unlink (list : Nat → List Key) (k : Key) : Nat → List Key := fun b => (list b).erase k

/-- `list_move_tail`, `/repo/src/cleaning/acp.c:753`. -/
def moveTail (list : Nat → List Key) (k : Key) (b : Nat) : Nat → List Key :=
  upd (unlink list k) b (unlink list k b ++ [k])

/-- `list_move`, `/repo/src/cleaning/acp.c:760`. -/
def moveHead (list : Nat → List Key) (k : Key) (b : Nat) : Nat → List Key :=
  upd (unlink list k) b (k :: unlink list k b)

/-- `_acp_update_bucket`, `/repo/src/cleaning/acp.c:739-762`; `none` is the assertion of `:745`. -/
def updateBucket (a : Ctx) (k : Key) : Option Ctx :=
  let c := a.chunk k
  if c.num > threshold a.ls c.bucket then
    if c.bucket = maxBuckets - 1 then none
    else
      some { a with chunk := updK a.chunk k { c with bucket := c.bucket + 1 },
                    list := moveTail a.list k (c.bucket + 1) }
  else if c.bucket ≠ 0 ∧ c.num ≤ threshold a.ls (c.bucket - 1) then
    some { a with chunk := updK a.chunk k { c with bucket := c.bucket - 1 },
                  list := moveHead a.list k (c.bucket - 1) }
  else some a

/-- `num_dirty++` in 16 bits, `/repo/src/cleaning/acp.c:778`. -/
def inc16 (x : Nat) : Nat := (x + 1) % 2 ^ 16

/-- `num_dirty--` in 16 bits, `/repo/src/cleaning/acp.c:800`. -/
def dec16 (x : Nat) : Nat := (x + (2 ^ 16 - 1)) % 2 ^ 16

/-- `cleaning_policy_acp_set_hot_cache_line` for line `c` of chunk `k`,
`/repo/src/cleaning/acp.c:764-784`. -/
def setHot (a : Ctx) (k : Key) (c : Nat) : Option Ctx :=
  let a := if a.flag c then a else
    { a with flag := upd a.flag c true,
             chunk := updK a.chunk k { a.chunk k with num := inc16 (a.chunk k).num } }
  updateBucket a k

/-- `cleaning_policy_acp_purge_block` for line `c` of chunk `k`,
`/repo/src/cleaning/acp.c:786-806`. -/
def purge (a : Ctx) (k : Key) (c : Nat) : Option Ctx :=
  let a := if a.flag c then
    { a with flag := upd a.flag c false,
             chunk := updK a.chunk k { a.chunk k with num := dec16 (a.chunk k).num } }
    else a
  updateBucket a k

/-- `cleaning_policy_acp_init_cache_block`, `/repo/src/cleaning/acp.c:217-224`. -/
def initBlock (a : Ctx) (c : Nat) : Ctx := { a with flag := upd a.flag c false }

/-! ## Cores -/

/-- `OCF_DIV_ROUND_UP(core_size, ACP_CHUNK_SIZE)`, `/repo/src/cleaning/acp.c:850`. -/
def numChunks (size : Nat) : Nat := (size + chunkSize - 1) / chunkSize

/-- The chunks of a core, `/repo/src/cleaning/acp.c:876-879`. -/
def keys (core m : Nat) : List Key := (List.range m).map fun i => (core, i)

/-- `cleaning_policy_acp_add_core` of a core of `size` bytes when the allocation of the table
succeeds, `/repo/src/cleaning/acp.c:845-887`; `none` is the assertion of `:859`. -/
def addCore (a : Ctx) (core size : Nat) : Option Ctx :=
  if a.tab core ≠ none then none
  else
    let m := numChunks size
    some { a with tab := upd a.tab core (some m), total := a.total + m,
                  chunk := fun k => if k.1 = core then ⟨0, 0, 0⟩ else a.chunk k,
                  list := upd a.list 0 ((keys core m).reverse ++ a.list 0) }

/-- `cleaning_policy_acp_remove_core`, `/repo/src/cleaning/acp.c:816-843`; `none` are the assertions
of `:822-823`.  The state of the chunk being cleaned (`:825-829`) is left out. -/
def removeCore (a : Ctx) (core : Nat) : Option Ctx :=
  match a.tab core with
  | none => none
  | some m =>
    if a.total < m then none
    else
      some { a with tab := upd a.tab core none, total := a.total - m,
                    list := fun b => (keys core m).foldl List.erase (a.list b) }

/-- The cores of the cache in order: id and size, `/repo/src/ocf_cache_priv.h:158-160`. -/
abbrev Cores := List (Nat × Nat)

/-- `_acp_remove_cores`, `/repo/src/cleaning/acp.c:188-195`. -/
def removeCores : Ctx → Cores → Option Ctx
  | a, [] => some a
  | a, (core, _) :: r => (removeCore a core).bind fun a => removeCores a r

/-- The loop of `_acp_load_cores`, `/repo/src/cleaning/acp.c:204-209`: the second part is `false` if
the allocation of a table failed, which `alloc` tells by core. -/
def loadLoop (alloc : Nat → Bool) : Ctx → Cores → Option (Ctx × Bool)
  | a, [] => some (a, true)
  | a, (core, size) :: r =>
    if a.tab core ≠ none then none
    else if alloc core then (addCore a core size).bind fun a => loadLoop alloc a r
    else some (a, false)

/-- The context before the cores are loaded, `/repo/src/cleaning/acp.c:265-285`; the flags of the
lines are part of the metadata of the cache and stay as they are. -/
def emptyCtx (ls : Nat) (flag : Nat → Bool) : Ctx :=
  { ls := ls, tab := fun _ => none, total := 0, chunk := fun _ => ⟨0, 0, 0⟩, list := fun _ => [],
    flag := flag }

/-- `cleaning_policy_acp_initialize`, `/repo/src/cleaning/acp.c:249-299`: `none` is a failed
assertion, `some none` an error.  If a table could not be allocated the cores are removed once by
`_acp_load_cores` (`:211-212`) and once more by `cleaning_policy_acp_deinitialize` (`:290`, `:230`). -/
def initCtx (alloc : Nat → Bool) (ls : Nat) (flag : Nat → Bool) (cores : Cores) :
    Option (Option Ctx) :=
  (loadLoop alloc (emptyCtx ls flag) cores).bind fun (a, ok) =>
    if ok then some (some a)
    else (removeCores a cores).bind fun a => (removeCores a cores).map fun _ => none

/-! ## Filling the buckets when the policy is chosen -/

/-- `OCF_ACP_POPULATE_SHARDS_CNT`, `/repo/src/cleaning/acp.c:301`. -/
def shardsCnt : Nat := 32

/-- The portion of a shard, `/repo/src/cleaning/acp.c:330`; 64-bit division, stored in 32 bits. -/
def portion (n shards : Nat) : Nat := ((n + shards - 1) / shards) % 2 ^ 32

/-- First line of a shard, `/repo/src/cleaning/acp.c:331`; 32-bit multiplication. -/
def shardBegin (n shards s : Nat) : Nat := portion n shards * s % 2 ^ 32

/-- End of a shard, `/repo/src/cleaning/acp.c:332`; 32-bit multiplication. -/
def shardEnd (n shards s : Nat) : Nat := min (portion n shards * (s + 1) % 2 ^ 32) n

/-- The lines of a shard in the order of the loop, `/repo/src/cleaning/acp.c:334`. -/
def shardLines (n shards s : Nat) : List Nat :=
  List.range' (shardBegin n shards s) (shardEnd n shards s - shardBegin n shards s)

/-- `sched` is an interleaving of the loops of all shards, `/repo/src/cleaning/acp.c:317-355`. -/
def Sched (n shards : Nat) (sched : List (Nat × Nat)) : Prop :=
  (∀ x ∈ sched, x.1 < shards) ∧
  ∀ s, s < shards → (sched.filter fun x => x.1 = s).map Prod.snd = shardLines n shards s

/-- The counters of the shards, `/repo/src/cleaning/acp.c:306-311`: 16 bits by shard and chunk. -/
abbrev Counts := Nat → Key → Nat

/-- One round of the loop of `ocf_acp_populate_handle` for line `c` of shard `s`,
`/repo/src/cleaning/acp.c:334-352`. -/
def popLine (ls : Nat) (l : Lines) (x : (Nat → Bool) × Counts) (sc : Nat × Nat) :
    (Nat → Bool) × Counts :=
  match chunkOf ls l sc.2 with
  | none => x
  | some k =>
    if l.dirty sc.2 then
      (upd x.1 sc.2 true, upd x.2 sc.1 (updK (x.2 sc.1) k (inc16 (x.2 sc.1 k))))
    else (upd x.1 sc.2 false, x.2)

/-- The sum of the counters of the shards, `/repo/src/cleaning/acp.c:366-370`, in 16 bits. -/
def sumShards (cnt : Counts) (k : Key) : Nat :=
  (List.range shardsCnt).foldl (fun acc s => (acc + cnt s k) % 2 ^ 16) 0

/-- The loop over the thresholds, `/repo/src/cleaning/acp.c:372-376`, from bucket `b` on; the
bucket at which it stops. -/
def popBucket (ls num : Nat) : Nat → Nat → Nat
  | 0, b => b
  | fuel + 1, b => if num < threshold ls b then b else popBucket ls num fuel (b + 1)

/-- `ocf_acp_populate_chunk`, `/repo/src/cleaning/acp.c:357-382`. -/
def popChunk (cnt : Counts) (a : Ctx) (k : Key) : Ctx :=
  let num := sumShards cnt k
  let b := popBucket a.ls num (maxBuckets - 1) 1 - 1
  { a with chunk := updK a.chunk k { a.chunk k with num := num, bucket := b },
           list := moveTail a.list k b }

/-- The chunks in the order of `ocf_acp_populate_finish`, `/repo/src/cleaning/acp.c:397-406`. -/
def allKeys (cores : Cores) : List Key := cores.flatMap fun (core, size) => keys core (numChunks size)

/-- `cleaning_policy_acp_populate`, `/repo/src/cleaning/acp.c:422-479`, after the allocation of the
counters (`:454`, zeroed); `sched` is the order in which the shards, which run in parallel, come to
the lines. -/
def populate (a : Ctx) (l : Lines) (cores : Cores) (sched : List (Nat × Nat)) : Ctx :=
  let x := sched.foldl (popLine a.ls l) (a.flag, fun _ _ => 0)
  (allKeys cores).foldl (popChunk x.2) { a with flag := x.1 }

/-! ## Cleaning -/

/-- `env_secs_to_ticks(ACP_CHUNK_CLEANING_BACKOFF_TIME)`, `/repo/src/cleaning/acp.c:572`, with `hz`
ticks in a second. -/
def backoff (hz : Nat) : Nat := 5 * hz

/-- `_acp_handle_flush_error` at time `now`, `/repo/src/cleaning/acp.c:566-584`. -/
def flushError (a : Ctx) (hz now : Nat) (k : Key) : Ctx :=
  { a with chunk := updK a.chunk k { a.chunk k with ts := now + backoff hz } }

/-- `_acp_can_clean_chunk`, `/repo/src/cleaning/acp.c:586-594`; `opened` by core. -/
def canClean (a : Ctx) (opened : Nat → Bool) (now : Nat) (k : Key) : Bool :=
  opened k.1 && (decide ((a.chunk k).ts > now) || (a.chunk k).ts == 0)

/-- `_acp_get_cleaning_candidate`, `/repo/src/cleaning/acp.c:596-617`: buckets 10 down to 1. -/
def candidate (a : Ctx) (opened : Nat → Bool) (now : Nat) : Option Key :=
  (List.range (maxBuckets - 1)).findSome? fun i =>
    (a.list (maxBuckets - 1 - i)).find? (canClean a opened now)

/-- `_acp_trylock_dirty`, `/repo/src/cleaning/acp.c:539-564`: the line that holds the core line, if
there is one, it is dirty, and the lock is free (`free`). -/
def trylock (l : Lines) (free : Nat → Bool) (core cl : Nat) : Option Nat :=
  ((List.range l.n).find? fun c => l.at_ c == some (core, cl)).filter fun c => l.dirty c && free c

/-- The loop of `_acp_prepare_flush_data`, `/repo/src/cleaning/acp.c:678-693`: from `iter` on, at
most `max` lines; `look i` is what `_acp_trylock_dirty` says when the loop comes to the `i`-th core
line of the chunk.  The collected lines and the new `iter`. -/
def prepare (look : Nat → Option Nat) (perChunk : Nat) : Nat → Nat → Nat → List Nat × Nat
  | 0, _, iter => ([], iter)
  | fuel + 1, max, iter =>
    if iter < perChunk ∧ 0 < max then
      match look iter with
      | none => prepare look perChunk fuel max (iter + 1)
      | some c =>
        let r := prepare look perChunk fuel (max - 1) (iter + 1)
        (c :: r.1, r.2)
    else ([], iter)

/-- `_acp_prepare_flush_data` with the bound of its loop put in, `/repo/src/cleaning/acp.c:663-701`. -/
def prepareFlush (look : Nat → Option Nat) (perChunk max iter : Nat) : List Nat × Nat :=
  prepare look perChunk (perChunk - iter) max iter

/-- The calls of `cleaning_policy_acp_perform_cleaning` for one chunk, with the limits `maxs`, as
long as the end of the chunk is not reached (`in_progress`); `/repo/src/cleaning/acp.c:705-737`,
`:695-698`.  The lines of each call and the last `iter`. -/
def calls (look : Nat → Option Nat) (perChunk : Nat) : List Nat → Nat → List (List Nat) × Nat
  | [], iter => ([], iter)
  | max :: r, iter =>
    let x := prepareFlush look perChunk max iter
    if x.2 = perChunk then ([x.1], x.2)
    else
      let y := calls look perChunk r x.2
      (x.1 :: y.1, y.2)

/-! ## The operations on the lines of a cache -/

/-- Where a line is in the middle of an operation; the line is then locked by the operation.
`hot`: the dirty bit was set (`/repo/src/utils/utils_cache_line.c:145`), the call of
`ocf_cleaning_set_hot_cache_line` follows (`:173`), or the line was purged because its class changes
(`/repo/src/utils/utils_user_part.c:139-142`).
`clean`: the dirty bit was cleared (`/repo/src/utils/utils_cache_line.c:103`), the purge follows
(`:128`).
`sparse`: purged before the core is removed (`/repo/src/mngt/ocf_mngt_common.c:84-85`), the bits and
the mapping are cleared next (`:86`). -/
inductive Phase
  | idle
  | hot
  | clean
  | sparse
deriving DecidableEq

/-- The context, the lines, their phases, the cores, the time and (added) which chunks were touched
since the buckets were filled; `/repo/src/cleaning/acp.c:107-138`. -/
structure State where
  a : Ctx
  l : Lines
  phase : Nat → Phase
  cores : Cores
  now : Nat
  touched : Key → Bool

/-- The operations; the code of each is cited at `exec`. -/
inductive Op
  | markDirty (c : Nat)
  | hot (c : Nat)
  | markClean (c : Nat)
  | purge (c : Nat)
  | sparse (c : Nat)
  | sparseEnd (c : Nat)
  | repart (c : Nat)
  | map (c core cl : Nat)
  | unmap (c : Nat)
  | addCore (core size : Nat)
  | removeCore (core : Nat)
  | error (k : Key) (hz : Nat)
  | tick (now : Nat)
  | choose (sched : List (Nat × Nat))

/-- Effect of an operation.
`markDirty`: `/repo/src/utils/utils_cache_line.c:145`; `hot`: `:173`, or a write to a line that is
dirty already; `markClean`: `:103`; `purge`: `:128`; `sparse`, `sparseEnd`:
`/repo/src/mngt/ocf_mngt_common.c:84-86`; `repart`: `/repo/src/utils/utils_user_part.c:132-151` (the
`hot` follows); `map`: `/repo/src/engine/engine_common.c:326`;
`unmap`: `/repo/src/utils/utils_cache_line.c:35`; `addCore`: `/repo/src/mngt/ocf_mngt_core.c:434`;
`removeCore`: `/repo/src/mngt/ocf_mngt_core.c:704`; `error`: a flush of chunk `k` failed,
`/repo/src/cleaning/acp.c:637-640`; `choose`: the policy is chosen anew,
`/repo/src/mngt/ocf_mngt_flush.c:1019-1024`, and all tables could be allocated. -/
def exec (st : State) : Op → Option State
  | .markDirty c =>
    some { st with l := { st.l with dirty := upd st.l.dirty c true }, phase := upd st.phase c .hot }
  | .hot c =>
    (chunkOf st.a.ls st.l c).bind fun k => (setHot st.a k c).map fun a =>
      { st with a := a, phase := upd st.phase c .idle, touched := updK st.touched k true }
  | .markClean c =>
    some { st with l := { st.l with dirty := upd st.l.dirty c false },
                   phase := upd st.phase c .clean }
  | .purge c =>
    (chunkOf st.a.ls st.l c).bind fun k => (purge st.a k c).map fun a =>
      { st with a := a, phase := upd st.phase c .idle, touched := updK st.touched k true }
  | .sparse c =>
    (chunkOf st.a.ls st.l c).bind fun k => (purge st.a k c).map fun a =>
      { st with a := a, phase := upd st.phase c .sparse, touched := updK st.touched k true }
  | .sparseEnd c =>
    some { st with l := { st.l with dirty := upd st.l.dirty c false, at_ := upd st.l.at_ c none },
                   phase := upd st.phase c .idle }
  | .repart c =>
    (chunkOf st.a.ls st.l c).bind fun k => (purge st.a k c).map fun a =>
      { st with a := a, phase := upd st.phase c .hot, touched := updK st.touched k true }
  | .map c core cl =>
    some { st with a := initBlock st.a c,
                   l := { st.l with at_ := upd st.l.at_ c (some (core, cl)) } }
  | .unmap c => some { st with l := { st.l with at_ := upd st.l.at_ c none } }
  | .addCore core size =>
    (addCore st.a core size).map fun a =>
      { st with a := a, cores := st.cores ++ [(core, size)],
                touched := fun k => if k.1 = core then true else st.touched k }
  | .removeCore core =>
    (removeCore st.a core).map fun a =>
      { st with a := a, cores := st.cores.filter fun x => x.1 ≠ core }
  | .error k hz => some { st with a := flushError st.a hz st.now k }
  | .tick now => some { st with now := now }
  | .choose sched =>
    (initCtx (fun _ => true) st.a.ls st.a.flag st.cores).bind fun a => a.map fun a =>
      { st with a := populate a st.l st.cores sched, touched := fun _ => false }

/-- When the operations are called: on a line no other operation is busy with (hash bucket and
line locks, C09 and C06; a `hot` is also the second half of `markDirty` and `repart`), mapped for
all but `map`; the dirty bit is cleared only on a dirty line; an evicted or invalidated line is clean
(`/repo/src/ocf_lru.c:727`, `/repo/src/utils/utils_cache_line.h:154-162`); a line is mapped to a core
line of a core of the cache that no other line holds (C04); a core is removed after its lines
(`/repo/src/mngt/ocf_mngt_core.c:675`, `:704`); the policy is chosen with exclusive access to the
metadata (`/repo/src/mngt/ocf_mngt_flush.c:977`). -/
def guard (st : State) : Op → Prop
  | .markDirty c => c < st.l.n ∧ st.phase c = .idle ∧ st.l.at_ c ≠ none
  | .hot c => c < st.l.n ∧ (st.phase c = .hot ∨
      (st.phase c = .idle ∧ st.l.at_ c ≠ none ∧ st.l.dirty c = true))
  | .markClean c => c < st.l.n ∧ st.phase c = .idle ∧ st.l.dirty c = true
  | .purge c => c < st.l.n ∧ st.phase c = .clean
  | .sparse c => c < st.l.n ∧ st.phase c = .idle ∧ st.l.dirty c = true
  | .sparseEnd c => c < st.l.n ∧ st.phase c = .sparse
  | .repart c => c < st.l.n ∧ st.phase c = .idle ∧ st.l.dirty c = true
  | .map c core cl => c < st.l.n ∧ st.phase c = .idle ∧ st.l.at_ c = none ∧
      (∀ d, st.l.at_ d ≠ some (core, cl)) ∧
      ∃ size, (core, size) ∈ st.cores ∧ cl * st.a.ls < size
  | .unmap c => c < st.l.n ∧ st.phase c = .idle ∧ st.l.dirty c = false
  | .addCore core _ => ∀ size, (core, size) ∉ st.cores
  | .removeCore core => (∃ size, (core, size) ∈ st.cores) ∧ ∀ c cl, st.l.at_ c ≠ some (core, cl)
  | .error k _ => ∃ m, st.a.tab k.1 = some m ∧ k.2 < m
  | .tick now => st.now ≤ now
  | .choose sched => (∀ c, st.phase c = .idle) ∧ Sched st.l.n shardsCnt sched

/-- A run of operations, each called as `guard` says; `/repo/src/cleaning/acp.c:739-806`. -/
inductive Run : State → List Op → State → Prop
  | nil (st : State) : Run st [] st
  | snoc {st st' st'' : State} {ops : List Op} {op : Op} : Run st ops st' →
      guard st' op → exec st' op = some st'' → Run st (ops ++ [op]) st''

/-- The line sizes of a cache, `/repo/inc/ocf_def.h:253-283`. -/
def ValidLs (ls : Nat) : Prop := ls ∈ [4096, 8192, 16384, 32768, 65536]

/-- The lines of a cache whose metadata is in order (C04): lines outside are not mapped, a core line
is held by one line, of a core of the cache and inside of it, and dirty lines are mapped;
`/repo/src/metadata/metadata_collision.h:14-60`. -/
structure LinesOk (ls : Nat) (l : Lines) (cores : Cores) : Prop where
  nodup : (cores.map Prod.fst).Nodup
  out : ∀ c, l.n ≤ c → l.at_ c = none
  inj : ∀ c d x, l.at_ c = some x → l.at_ d = some x → c = d
  inside : ∀ c core cl, l.at_ c = some (core, cl) → ∃ size, (core, size) ∈ cores ∧ cl * ls < size
  mapped : ∀ c, l.dirty c = true → l.at_ c ≠ none

/-- The policy chosen for a cache in which nothing is dirty, for instance a new one,
`/repo/src/mngt/ocf_mngt_cache.c:235`: the buckets need not be filled. -/
structure Fresh (st : State) : Prop where
  ls : ValidLs st.a.ls
  small : st.l.n ≤ 2 ^ 32 - 32
  lines : LinesOk st.a.ls st.l st.cores
  idle : ∀ c, st.phase c = .idle
  clean : ∀ c, st.l.dirty c = false
  flag : ∀ c, st.l.at_ c ≠ none → st.a.flag c = false
  ctx : initCtx (fun _ => true) st.a.ls st.a.flag st.cores = some (some st.a)
  touched : ∀ k, st.touched k = true

/-- The policy just chosen for a cache with any lines, dirty or not,
`/repo/src/mngt/ocf_mngt_flush.c:1019-1024` or `/repo/src/mngt/ocf_mngt_cache.c:754-759`. -/
structure Chosen (st : State) : Prop where
  ls : ValidLs st.a.ls
  small : st.l.n ≤ 2 ^ 32 - 32
  lines : LinesOk st.a.ls st.l st.cores
  idle : ∀ c, st.phase c = .idle
  ctx : ∃ flag a sched, Sched st.l.n shardsCnt sched ∧
    initCtx (fun _ => true) st.a.ls flag st.cores = some (some a) ∧
    st.a = populate a st.l st.cores sched
  touched : ∀ k, st.touched k = false

end Verif.Acp
