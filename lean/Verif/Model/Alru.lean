import Verif.Model.Collision

/-!
# The ALRU cleaning policy

Model of the lists of `/repo/src/cleaning/alru.c`: one doubly linked list of dirty cache lines per
I/O class.  Functions return `none` when `ENV_BUG` or `ENV_BUG_ON` is reached.

Simplifications:
* the code under one list lock is one step (`list_lock`, `/repo/src/cleaning/alru.c:62`); the
  change of the dirty bits and the call into the cleaning policy are separate steps;
* of the status of a line only "mapped" and "dirty" are kept; the number of sectors does not
  matter here (C03, C31);
* `size` is a number, it does not overflow;
* every I/O class is on the list of classes, as after the start of a cache
  (`/repo/src/mngt/ocf_mngt_io_class.c:77`);
* the lists of a cache loaded after a clean shutdown are those that were saved
  (`/repo/src/mngt/ocf_mngt_cache.c:747-751`); the loading is not modelled.
-/

namespace Verif.Alru

open Verif.Collision (upd)

/-- `struct alru_cleaning_policy` of each I/O class and `struct alru_cleaning_policy_meta` of each
line, `/repo/src/cleaning/alru_structs.h:12-31`; `n` is `collision_table_entries`, the terminator. -/
structure Lists where
  n : Nat
  head : Nat → Nat
  tail : Nat → Nat
  size : Nat → Nat
  next : Nat → Nat
  prev : Nat → Nat
  ts : Nat → Nat

/-- `append_alru_head`, `/repo/src/cleaning/alru.c:69-100`. -/
def append (a : Lists) (p hd tl : Nat) : Option Lists :=
  if hd = a.n ∧ tl = a.n then some a
  else if hd = a.n then none
  else if tl = a.n then none
  else if a.head p = a.n then
    some { a with head := upd a.head p hd, tail := upd a.tail p tl }
  else
    some { a with
      prev := upd a.prev (a.head p) tl
      next := upd a.next tl (a.head p)
      head := upd a.head p hd }

/-- `add_alru_head`, `/repo/src/cleaning/alru.c:103-127`, at the time `now`. -/
def addHead (a : Lists) (p c now : Nat) : Option Lists :=
  if ¬ c < a.n then none
  else
    (append { a with next := upd a.next c a.n, prev := upd a.prev c a.n, ts := upd a.ts c now }
      p c c).map fun a => { a with size := upd a.size p (a.size p + 1) }

/-- `remove_alru_list`, `/repo/src/cleaning/alru.c:130-236`. -/
def remove (a : Lists) (p c : Nat) : Option Lists :=
  if ¬ c < a.n then none
  else if a.size p = 0 then none
  else if a.next c = a.n ∧ a.prev c = a.n ∧ a.head p ≠ c ∧ a.tail p ≠ c then some a
  else
    let a? :=
      if a.head p = c ∧ a.tail p = c then
        some { a with
          next := upd a.next c a.n
          prev := upd a.prev c a.n
          head := upd a.head p a.n
          tail := upd a.tail p a.n }
      else if a.tail p ≠ c ∧ a.head p = c then
        if ¬ a.next c < a.n then none
        else some { a with
          head := upd a.head p (a.next c)
          next := upd a.next c a.n
          prev := upd a.prev (a.next c) a.n }
      else if a.head p ≠ c ∧ a.tail p = c then
        if ¬ a.prev c < a.n then none
        else some { a with
          tail := upd a.tail p (a.prev c)
          prev := upd a.prev c a.n
          next := upd a.next (a.prev c) a.n }
      else if ¬ a.next c < a.n then none
      else if ¬ a.prev c < a.n then none
      else some { a with
          next := upd (upd a.next (a.prev c) (a.next c)) c a.n
          prev := upd (upd a.prev (a.next c) (a.prev c)) c a.n }
    a?.map fun a => { a with size := upd a.size p (a.size p - 1) }

/-- `cleaning_policy_alru_init_cache_block`, `/repo/src/cleaning/alru.c:264-274`. -/
def initBlock (a : Lists) (c : Nat) : Lists :=
  { a with ts := upd a.ts c 0, prev := upd a.prev c a.n, next := upd a.next c a.n }

/-- `cleaning_policy_alru_set_hot_cache_line`, `/repo/src/cleaning/alru.c:322-353`. -/
def setHot (a : Lists) (p c now : Nat) : Option Lists :=
  let a? :=
    if a.next c ≠ a.n ∨ a.prev c ≠ a.n ∨ (a.head p = c ∧ a.tail p = c) then remove a p c
    else some a
  a?.bind fun a => addHead a p c now

/-! ## Filling the lists when the policy is chosen -/

/-- The lists of the shards, `struct ocf_alru_populate_context`,
`/repo/src/cleaning/alru.c:405-416`: head and tail by shard and class. -/
structure Shards where
  head : Nat → Nat → Nat
  tail : Nat → Nat → Nat

/-- Change one entry, `/repo/src/cleaning/alru.c:439-440`. -/
def upd2 (f : Nat → Nat → Nat) (i j v : Nat) : Nat → Nat → Nat := upd f i (upd (f i) j v)

/-- `add_alru_head_populate`, `/repo/src/cleaning/alru.c:418-455`. -/
def addPopulate (a : Lists) (h : Shards) (s p c now : Nat) : Lists × Shards :=
  let cur := h.head s p
  if cur = a.n then
    ({ a with next := upd a.next c a.n, prev := upd a.prev c a.n, ts := upd a.ts c now },
     { head := upd2 h.head s p c, tail := upd2 h.tail s p c })
  else
    ({ a with next := upd a.next c cur, prev := upd (upd a.prev c a.n) cur c,
              ts := upd a.ts c now },
     { h with head := upd2 h.head s p c })

/-- `OCF_ALRU_POPULATE_SHARDS_CNT`, `/repo/src/cleaning/alru.c:403`. -/
def shardsCnt : Nat := 32

/-- The portion of a shard, `/repo/src/cleaning/alru.c:474`; 64-bit division, stored in 32 bits. -/
def portion (n shards : Nat) : Nat := ((n + shards - 1) / shards) % 2 ^ 32

/-- First line of a shard, `/repo/src/cleaning/alru.c:475`; 32-bit multiplication. -/
def shardBegin (n shards s : Nat) : Nat := portion n shards * s % 2 ^ 32

/-- End of a shard, `/repo/src/cleaning/alru.c:476`; 64-bit multiplication. -/
def shardEnd (n shards s : Nat) : Nat := min (portion n shards * (s + 1)) n

/-- The lines of a shard in the order of the loop, `/repo/src/cleaning/alru.c:483`. -/
def shardLines (n shards s : Nat) : List Nat :=
  List.range' (shardBegin n shards s) (shardEnd n shards s - shardBegin n shards s)

/-- What is known about the lines of the cache: `core_id`, dirty bits and class of a line,
`/repo/src/cleaning/alru.c:484-492`. -/
structure Lines where
  mapped : Nat → Bool
  dirty : Nat → Bool
  part : Nat → Nat

/-- One round of the loop of `ocf_alru_populate_handle` for line `c` of shard `s`,
`/repo/src/cleaning/alru.c:483-499`.  The number of lines per class is added to `size` at once; the code
collects it and adds it at the end of the shard (`:501-504`). -/
def popLine (l : Lines) (now : Nat → Nat) (x : Lists × Shards) (sc : Nat × Nat) : Lists × Shards :=
  let (a, h) := x
  let (s, c) := sc
  if !l.mapped c then (a, h)
  else if !l.dirty c then (initBlock a c, h)
  else
    let (a, h) := addPopulate a h s (l.part c) c (now c)
    ({ a with size := upd a.size (l.part c) (a.size (l.part c) + 1) }, h)

/-- The lists of the shards appended, `ocf_alru_populate_finish`,
`/repo/src/cleaning/alru.c:521-528`. -/
def popAppend (h : Shards) : Option Lists → List (Nat × Nat) → Option Lists
  | a?, [] => a?
  | a?, (p, s) :: r => popAppend h (a?.bind fun a => append a p (h.head s p) (h.tail s p)) r

/-- `cleaning_policy_alru_populate`, `/repo/src/cleaning/alru.c:538-572`, with `parts` classes and
`shards` shards.  `sched` is the order in which the shards, which run in parallel, come to the
lines; the lists of a shard are emptied at its beginning (`:478-481`). -/
def populate (a : Lists) (l : Lines) (parts shards : Nat) (now : Nat → Nat)
    (sched : List (Nat × Nat)) : Option Lists :=
  let a := { a with head := fun _ => a.n, tail := fun _ => a.n, size := fun _ => 0 }
  let x := sched.foldl (popLine l now)
    (a, { head := fun _ _ => a.n, tail := fun _ _ => a.n })
  popAppend x.2 (some x.1)
    ((List.range parts).flatMap fun p => (List.range shards).map fun s => (p, s))

/-! ## Choosing lines to clean -/

/-- `more_blocks_to_flush`, `/repo/src/cleaning/alru.c:781-795`. -/
def more (a : Lists) (c lastAccess : Nat) : Bool :=
  if c ≥ a.n then false
  else if a.ts c ≥ lastAccess then false
  else true

/-- The `while` loop of `get_data_to_flush` for one class, `/repo/src/cleaning/alru.c:849-865`:
the lines collected and whether the limit was reached.  The code has no bound on the rounds. -/
def walk (a : Lists) (busy : Nat → Bool) (limit lastAccess : Nat) :
    Nat → Nat → List Nat → Option (List Nat × Bool)
  | 0, _, _ => none
  | fuel + 1, c, got =>
    if !more a c lastAccess then some (got, false)
    else if got.length ≥ limit then some (got, true)
    else walk a busy limit lastAccess fuel (a.prev c) (if busy c then got else got ++ [c])

/-- `get_data_to_flush`, `/repo/src/cleaning/alru.c:817-873`, over the classes in the given order. -/
def collect (a : Lists) (busy : Nat → Bool) (limit lastAccess fuel : Nat) :
    List Nat → List Nat → Option (List Nat)
  | [], got => some got
  | p :: ps, got =>
    match walk a busy limit lastAccess fuel (a.tail p) got with
    | none => none
    | some (got, true) => some got
    | some (got, false) => collect a busy limit lastAccess fuel ps got

/-- `check_for_dirty_ratio`, `/repo/src/cleaning/alru.c:719-731`; all numbers have 32 bits
(`/repo/inc/ocf_cache.h:34`, `:52`). -/
def dirtyRatio (dirty size maxRatio : Nat) : Bool :=
  if maxRatio = 100 then false
  else decide (dirty * 100 % 2 ^ 32 / size ≥ maxRatio)

/-! ## The operations on the lines of a cache -/

/-- Where a line is in the middle of an operation; the line is then locked by the operation:
`hot was`: the dirty bit was set (`/repo/src/utils/utils_cache_line.c:145`), the call of
`ocf_cleaning_set_hot_cache_line` follows (`:173`); `was`: the line is on a list.
`clean`: the dirty bit was cleared (`:104`), the purge follows (`:128`).
`sparse`: purged before the core is removed (`/repo/src/mngt/ocf_mngt_common.c:84-85`), the bits and
the mapping are cleared next (`:86`).
`move q`: purged before it is moved to class `q` (`/repo/src/utils/utils_user_part.c:139-142`). -/
inductive Phase
  | idle
  | hot (was : Bool)
  | clean
  | sparse
  | move (q : Nat)
deriving DecidableEq

/-- The lists, the lines, their phases, and (added) the lines in the order of their last touch,
the latest first; `/repo/src/cleaning/alru.c:60-63`. -/
structure State where
  a : Lists
  l : Lines
  phase : Nat → Phase
  recent : List Nat

/-- The operations; the code of each is cited at `exec`. -/
inductive Op
  | markDirty (c : Nat)
  | hot (c now : Nat)
  | markClean (c : Nat)
  | purge (c : Nat)
  | sparse (c : Nat)
  | sparseEnd (c : Nat)
  | repart (c q : Nat)
  | move (c : Nat)
  | map (c p : Nat)
  | unmap (c : Nat)
  | populate (now next prev ts head tail size : Nat → Nat) (sched : List (Nat × Nat))

/-- Effect of an operation, on the lines of a cache with `parts` classes.
`markDirty`: `/repo/src/utils/utils_cache_line.c:145`; `hot`: `:173`, or a write to a line that is
dirty already, `/repo/src/engine/engine_wb.c:31`; `markClean`: `/repo/src/utils/utils_cache_line.c:104`;
`purge`: `:128`; `sparse`, `sparseEnd`: `/repo/src/mngt/ocf_mngt_common.c:84-86`;
`repart`, `move`: `/repo/src/utils/utils_user_part.c:132-151` (a clean line is only moved);
`map`: `/repo/src/engine/engine_common.c:326` with the class set before, `/repo/src/ocf_lru.c:745`;
`unmap`: `/repo/src/utils/utils_cache_line.c:35`; `populate`:
`/repo/src/mngt/ocf_mngt_flush.c:1019-1024`, whatever the memory of the lists held. -/
def exec (parts : Nat) (st : State) : Op → Option State
  | .markDirty c =>
    some { st with l := { st.l with dirty := upd st.l.dirty c true },
                   phase := upd st.phase c (.hot (st.l.dirty c)) }
  | .hot c now =>
    (setHot st.a (st.l.part c) c now).map fun a =>
      { st with a := a, phase := upd st.phase c .idle, recent := c :: st.recent.erase c }
  | .markClean c =>
    some { st with l := { st.l with dirty := upd st.l.dirty c false },
                   phase := upd st.phase c .clean }
  | .purge c =>
    (remove st.a (st.l.part c) c).map fun a => { st with a := a, phase := upd st.phase c .idle }
  | .sparse c =>
    (remove st.a (st.l.part c) c).map fun a => { st with a := a, phase := upd st.phase c .sparse }
  | .sparseEnd c =>
    some { st with l := { st.l with dirty := upd st.l.dirty c false,
                                    mapped := upd st.l.mapped c false },
                   phase := upd st.phase c .idle }
  | .repart c q =>
    if st.l.dirty c then
      (remove st.a (st.l.part c) c).map fun a =>
        { st with a := a, phase := upd st.phase c (.move q) }
    else some { st with l := { st.l with part := upd st.l.part c q } }
  | .move c =>
    match st.phase c with
    | .move q =>
      some { st with l := { st.l with part := upd st.l.part c q },
                     phase := upd st.phase c (.hot false) }
    | _ => none
  | .map c p =>
    some { st with a := initBlock st.a c,
                   l := { st.l with mapped := upd st.l.mapped c true, part := upd st.l.part c p } }
  | .unmap c => some { st with l := { st.l with mapped := upd st.l.mapped c false } }
  | .populate now next prev ts head tail size sched =>
    (populate { n := st.a.n, head := head, tail := tail, size := size, next := next, prev := prev,
                ts := ts } st.l parts shardsCnt now sched).map fun a =>
      { st with a := a, recent := (List.range st.a.n).reverse }

/-- `sched` is an interleaving of the loops of all shards, `/repo/src/cleaning/alru.c:457-507`. -/
def Sched (n shards : Nat) (sched : List (Nat × Nat)) : Prop :=
  (∀ x ∈ sched, x.1 < shards) ∧
  ∀ s, s < shards → (sched.filter fun x => x.1 = s).map Prod.snd = shardLines n shards s

/-- When the operations are called: on a line no other operation is busy with (hash bucket and
line locks, C09 and C06; a `hot` is also the second half of `markDirty` and `move`), mapped for
all but `map`; the dirty bit is cleared only on a dirty line; an evicted or invalidated line is clean
(`/repo/src/ocf_lru.c:727`, `/repo/src/utils/utils_cache_line.h:154-162`); the policy is chosen
with exclusive access to the metadata (`/repo/src/mngt/ocf_mngt_flush.c:977`). -/
def guard (parts : Nat) (st : State) : Op → Prop
  | .markDirty c => c < st.a.n ∧ st.phase c = .idle ∧ st.l.mapped c = true
  | .hot c _ => c < st.a.n ∧ ((∃ was, st.phase c = .hot was) ∨
      (st.phase c = .idle ∧ st.l.mapped c = true ∧ st.l.dirty c = true))
  | .markClean c => c < st.a.n ∧ st.phase c = .idle ∧ st.l.dirty c = true
  | .purge c => c < st.a.n ∧ st.phase c = .clean
  | .sparse c => c < st.a.n ∧ st.phase c = .idle ∧ st.l.dirty c = true
  | .sparseEnd c => c < st.a.n ∧ st.phase c = .sparse
  | .repart c q => c < st.a.n ∧ st.phase c = .idle ∧ st.l.mapped c = true ∧ q < parts
  | .move c => c < st.a.n ∧ ∃ q, st.phase c = .move q
  | .map c p => c < st.a.n ∧ st.phase c = .idle ∧ st.l.mapped c = false ∧ p < parts
  | .unmap c => c < st.a.n ∧ st.phase c = .idle ∧ st.l.dirty c = false
  | .populate _ _ _ _ _ _ _ sched => (∀ c, st.phase c = .idle) ∧ Sched st.a.n shardsCnt sched

/-- A run of operations, each called as `guard` says; `/repo/src/cleaning/alru.c:60-63`. -/
inductive Run (parts : Nat) : State → List Op → State → Prop
  | nil (st : State) : Run parts st [] st
  | snoc {st st' st'' : State} {ops : List Op} {op : Op} : Run parts st ops st' →
      guard parts st' op → exec parts st' op = some st'' → Run parts st (ops ++ [op]) st''

/-- A cache in which the policy is about to be chosen, `/repo/src/mngt/ocf_mngt_flush.c:971-982`:
nothing is known about the memory of the lists. -/
structure Before (parts : Nat) (st : State) : Prop where
  idle : ∀ c, st.phase c = .idle
  mapped : ∀ c, c < st.a.n → st.l.dirty c = true → st.l.mapped c = true
  part : ∀ c, c < st.a.n → st.l.mapped c = true → st.l.part c < parts
  lines : st.a.n < 2 ^ 32

end Verif.Alru
