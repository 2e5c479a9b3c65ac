import Verif.Model.Lru

/-!
# Model of taking lines for a request (`ocf_lru_req_clines`, `/repo/src/ocf_lru.c:304-762`)

Any number of threads run `ocf_lru_req_clines` at the same time, one atomic action (a try-lock,
an unlock, a read of metadata, a list change) per step.  Between their runs the same threads act
as the rest of the library: they lock and unlock lines and buckets, set and clear dirty bits,
move lines between lists and touch them, under the locking rules of the code.

The lists are the sequences of C05 (head first), one per partition, index and cleanness; the
reported sizes are not kept here (C30).  A waiter that gets a line when it is unlocked takes it
in a separate step.  Hash bucket numbers are given by a parameter `hb`.
-/

namespace Verif.Evict

open Lru (Key freeId getKey)

/-- `OCF_NUM_LRU_LISTS`.  `/repo/src/ocf_space.h:13`. -/
def W : Nat := 32

/-- `__builtin_ffsll` of a mask of `W` bits: 1 + the index of the lowest set bit, 0 if none.
Used in `/repo/src/ocf_lru.c:355`. -/
def ffs (m : Nat) : Nat :=
  match (List.range W).find? (fun j => m.testBit j) with
  | none => 0
  | some j => j + 1

/-- `ocf_rotate_right` at width `W`.  `bits < 2^32` and `shift ≤ 32`, so nothing is lost in
64 bits.  `/repo/src/ocf_def_priv.h:53-58`. -/
def rotateRight (bits shift : Nat) : Nat :=
  ((bits >>> shift) ||| (bits <<< (W - shift))) &&& (2 ^ W - 1)

/-- The list selection part of `struct ocf_lru_iter`: `lru_idx`, `next_avail_lru`,
`num_avail_lrus`.  `/repo/src/ocf_part.h:44-61`. -/
structure It where
  idx : Nat
  mask : Nat
  num : Nat
  deriving DecidableEq, Repr

/-- `lru_iter_init`.  `/repo/src/ocf_lru.c:304-328`. -/
def It.init (start : Nat) : It := ⟨(start + W - 1) % W, 2 ^ W - 1, W⟩

/-- `_lru_next_lru`.  `/repo/src/ocf_lru.c:351-361`. -/
def It.next (it : It) : It :=
  { it with mask := rotateRight it.mask (ffs it.mask), idx := (it.idx + ffs it.mask) % W }

/-- `_lru_lru_is_empty`.  `/repo/src/ocf_lru.c:365-368`. -/
def It.isEmpty (it : It) : Bool := it.mask &&& (1 <<< (W - 1)) == 0

/-- `_lru_lru_set_empty`; `& ~bit` on a mask with the bit set.
`/repo/src/ocf_lru.c:370-374`. -/
def It.setEmpty (it : It) : It :=
  { it with mask := it.mask &&& ((2 ^ W - 1) ^^^ (1 <<< (W - 1))), num := it.num - 1 }

/-- `_lru_lru_all_empty`.  `/repo/src/ocf_lru.c:376-379`. -/
def It.allEmpty (it : It) : Bool := it.num == 0

/-- `LOOKUP_HIT`, `LOOKUP_MISS`, `LOOKUP_REMAPPED` with the line.
`/repo/src/engine/cache_engine.h:14-16`. -/
inductive Slot where
  | hit (c : Nat)
  | miss
  | remapped (c : Nat)
  deriving DecidableEq, Repr

/-- The request and the arguments of `ocf_lru_req_clines`: target core lines `first..last` of
`core`, the buckets `own` the request has locked (`ocf_req_hash_in_range`, exact by C09), source
and destination partition, number of lines wanted, first list.
`/repo/src/ocf_lru.c:682-714`. -/
structure Req where
  core : Nat
  first : Nat
  last : Nat
  own : Nat → Bool
  src : Nat
  dst : Nat
  want : Nat
  start : Nat

/-- Position of a thread.  `/repo/src/ocf_lru.c:407-762`. -/
inductive Pc where
  /-- not in the function -/
  | idle
  /-- head of the loop over lists, `:461-464` -/
  | pick
  /-- list `l` locked, `n` lines towards the head are left, `:468-472` -/
  | scan (l n : Nat)
  /-- line write locked, own range to be tested, `:417-426` -/
  | chk (l n c : Nat)
  /-- bucket to be try-locked, `:428-431` -/
  | tryHash (l n c : Nat)
  /-- bucket locked, waiters to be tested, `:433` -/
  | wait (l n c : Nat)
  /-- rejected, bucket to be unlocked, `:434` -/
  | unhash (l n c : Nat)
  /-- rejected, line to be unlocked, `:424,429,435` -/
  | unline (l n c : Nat)
  /-- line taken, to be moved to the head of its new list, `:474-481` -/
  | found (l c : Nat)
  /-- list to be unlocked, `:483-484` -/
  | release (l : Nat) (r : Option Nat)
  /-- list unlocked, exhausted lists to be marked, `:486-489` -/
  | mark (l : Nat) (r : Option Nat)
  /-- line returned, dirty bits and free slot to be tested, `:727-738` -/
  | got (c : Nat)
  /-- line to be invalidated and its bucket unlocked, `:740-743` -/
  | inval (c : Nat)
  /-- line to be assigned to the slot, `:745-758` -/
  | assign (c : Nat)
  /-- left the loop -/
  | done
  deriving DecidableEq, Repr

/-- Why a line is rejected: locked, own target line, bucket busy, waiters.
`/repo/src/ocf_lru.c:414,421,428,433`. -/
inductive Why where
  | busy
  | own
  | bucket
  | waited
  deriving DecidableEq, Repr

/-- What happened to lines, for the statement of the properties only: list `l` was locked with
contents `xs`; line `c` was rejected.  Not in the code; events of
`/repo/src/ocf_lru.c:464-472`. -/
inductive Ev where
  | visit (l : Nat) (xs : List Nat)
  | reject (c : Nat) (w : Why)

/-- A thread: position, request, iterator, `req->map`, `req_idx`, `i`.  For the statement of the
properties only: the event log, the lines locked before the call and the map at the call.
`/repo/src/ocf_lru.c:682-714`. -/
structure Th where
  pc : Pc
  req : Req
  it : It
  map : List Slot
  reqIdx : Nat
  got : Nat
  log : List Ev
  had : Nat → Bool
  map0 : List Slot

/-- Shared state: line locks (`/repo/src/utils/utils_alock.c:267-314`),
waiters, dirty bits (`metadata_test_dirty`), core mapping (`ocf_metadata_get_core_info`), lists,
LRU list locks, hash bucket locks, and whether an assertion failed.
`/repo/src/ocf_lru.c:407-493`. -/
structure St where
  writer : Nat → Option Nat
  readers : Nat → Nat
  waiters : Nat → Bool
  dirty : Nat → Bool
  core : Nat → Nat × Nat
  seq : Key → List Nat
  lruLock : Nat → Option Nat
  hash : Nat → Option Nat
  th : Nat → Th
  bug : Bool

/-- Function update; stores to arrays, e.g. `/repo/src/ocf_lru.c:747`. -/
def upd {α : Type} (f : Nat → α) (i : Nat) (a : α) : Nat → α := fun j => if j = i then a else f j

/-- Take `c` off list `a` and put it first on list `b`.
`/repo/src/ocf_lru.c:262-267`. -/
def shift (q : Key → List Nat) (c : Nat) (a b : Key) : Key → List Nat := fun k =>
  if k = b then c :: (if k = a then (q k).erase c else q k)
  else if k = a then (q k).erase c else q k

/-- Set the position of a thread.  Control flow of `/repo/src/ocf_lru.c:407-762`. -/
def St.go (s : St) (t : Nat) (pc : Pc) : St :=
  { s with th := upd s.th t { s.th t with pc := pc } }

/-- Set position and log an event.  Events of `/repo/src/ocf_lru.c:464-472`. -/
def St.goLog (s : St) (t : Nat) (pc : Pc) (e : Ev) : St :=
  { s with th := upd s.th t { s.th t with pc := pc, log := e :: (s.th t).log } }

/-- Thread at the loop of `ocf_lru_req_clines`.  `/repo/src/ocf_lru.c:697-716`. -/
def Th.start (s : St) (t : Nat) (r : Req) (map : List Slot) : Th :=
  ⟨.pick, r, It.init r.start, map, 0, 0, [], fun c => decide (s.writer c = some t), map⟩

/-- `while (req_idx + 1 < core_line_count && status != LOOKUP_MISS) req_idx++`.
`/repo/src/ocf_lru.c:733-736`. -/
def advance (map : List Slot) (i : Nat) : Nat :=
  if _h : i + 1 < map.length ∧ map[i]? ≠ some .miss then advance map (i + 1) else i
  termination_by map.length - i

/-- The request's own target line test.  `/repo/src/ocf_lru.c:421-423`. -/
def Req.inRange (r : Req) (x : Nat × Nat) : Bool :=
  x.1 == r.core && decide (r.first ≤ x.2) && decide (x.2 ≤ r.last)

/-- Number of slots to fill: `ocf_engine_unmapped_count` is the number of `LOOKUP_MISS` entries.
`/repo/src/engine/engine_common.h:111-115`. -/
def misses (map : List Slot) : Nat := map.countP (fun x => x == .miss)

/-- The clean list of the source partition.  `/repo/src/ocf_lru.c:466`. -/
def Req.list (r : Req) (l : Nat) : Key := getKey r.src l true

/-- The end of the do-while of `lru_iter_eviction_next` and of the callers' loop when nothing
was found on list.  `/repo/src/ocf_lru.c:486-490,724-725`. -/
def afterEmpty (it : It) : It × Pc :=
  let it' := if it.isEmpty then it else it.setEmpty
  (it', if it'.allEmpty then .done else .pick)

/-- One atomic step.  `hb` gives the bucket of a core line.
`/repo/src/ocf_lru.c:407-762`. -/
inductive Step (hb : Nat × Nat → Nat) : St → St → Prop where
  /-- Call of `ocf_lru_req_clines`; its assertions on arguments are the caller's duty.  Slots
  remapped by an earlier call are still locked by the request; no update of dirty bits is half
  done.
  `/repo/src/ocf_lru.c:682-714`. -/
  | call (s : St) (t : Nat) (r : Req) (map : List Slot) : (s.th t).pc = .idle →
      (∀ b, s.hash b = some t ↔ r.own b = true) → r.dst ≠ freeId → 0 < r.want →
      r.want ≤ misses map →
      (∀ i c, map[i]? = some (.remapped c) →
        s.writer c = some t ∧ s.core c = (r.core, r.first + i)) →
      (∀ (k : Key) (c : Nat), s.writer c = some t → s.dirty c = true → k.clean = true →
        c ∉ s.seq k) →
      Step hb s { s with th := upd s.th t (Th.start s t r map) }
  /-- Enough lines found.  `/repo/src/ocf_lru.c:716,761`. -/
  | enough (s : St) (t : Nat) : (s.th t).pc = .pick → (s.th t).got = (s.th t).req.want →
      Step hb s (s.go t .done)
  /-- Next list, lock it.  `/repo/src/ocf_lru.c:461-468,514-521`. -/
  | pick (s : St) (t : Nat) : (s.th t).pc = .pick → (s.th t).got < (s.th t).req.want →
      s.lruLock (s.th t).it.next.idx = none →
      Step hb s { s with
        lruLock := upd s.lruLock (s.th t).it.next.idx (some t)
        th := upd s.th t { s.th t with
          it := (s.th t).it.next
          pc := .scan (s.th t).it.next.idx (s.seq ((s.th t).req.list (s.th t).it.next.idx)).length
          log := .visit (s.th t).it.next.idx (s.seq ((s.th t).req.list (s.th t).it.next.idx))
            :: (s.th t).log } }
  /-- `ocf_cache_line_try_lock_wr` succeeds.  `/repo/src/ocf_lru.c:414-418,522-525`. -/
  | lock (s : St) (t l n c : Nat) : (s.th t).pc = .scan l (n + 1) →
      (s.seq ((s.th t).req.list l))[n]? = some c → s.writer c = none → s.readers c = 0 →
      Step hb s ({ s with writer := upd s.writer c (some t) }.go t
        (if (s.th t).req.src = freeId then .found l c else .chk l n c))
  /-- The try-lock fails, previous line.  `/repo/src/ocf_lru.c:414-415,469-472`. -/
  | lockFail (s : St) (t l n c : Nat) : (s.th t).pc = .scan l (n + 1) →
      (s.seq ((s.th t).req.list l))[n]? = some c → s.writer c ≠ none ∨ s.readers c ≠ 0 →
      Step hb s (s.goLog t (.scan l n) (.reject c .busy))
  /-- Head of the list passed.  `/repo/src/ocf_lru.c:469-472`. -/
  | scanEnd (s : St) (t l : Nat) : (s.th t).pc = .scan l 0 →
      Step hb s (s.go t (.release l none))
  /-- Own target line.  `/repo/src/ocf_lru.c:421-426`. -/
  | own (s : St) (t l n c : Nat) : (s.th t).pc = .chk l n c →
      (s.th t).req.inRange (s.core c) = true →
      Step hb s (s.goLog t (.unline l n c) (.reject c .own))
  /-- Not an own target line.  `/repo/src/ocf_lru.c:421-426`. -/
  | notOwn (s : St) (t l n c : Nat) : (s.th t).pc = .chk l n c →
      (s.th t).req.inRange (s.core c) = false → Step hb s (s.go t (.tryHash l n c))
  /-- Bucket is already locked by the request.  `/repo/src/ocf_lru.c:384-387`. -/
  | hashOwn (s : St) (t l n c : Nat) : (s.th t).pc = .tryHash l n c →
      (s.th t).req.own (hb (s.core c)) = true → Step hb s (s.go t (.wait l n c))
  /-- Bucket try-locked.  `/repo/src/ocf_lru.c:389-391`. -/
  | hashLock (s : St) (t l n c : Nat) : (s.th t).pc = .tryHash l n c →
      (s.th t).req.own (hb (s.core c)) = false → s.hash (hb (s.core c)) = none →
      Step hb s ({ s with hash := upd s.hash (hb (s.core c)) (some t) }.go t (.wait l n c))
  /-- Bucket is busy.  `/repo/src/ocf_lru.c:428-431`. -/
  | hashFail (s : St) (t l n c : Nat) : (s.th t).pc = .tryHash l n c →
      (s.th t).req.own (hb (s.core c)) = false → s.hash (hb (s.core c)) ≠ none →
      Step hb s (s.goLog t (.unline l n c) (.reject c .bucket))
  /-- Somebody waits for the line.  `/repo/src/ocf_lru.c:433`. -/
  | waited (s : St) (t l n c : Nat) : (s.th t).pc = .wait l n c → s.waiters c = true →
      Step hb s (s.goLog t (.unhash l n c) (.reject c .waited))
  /-- Nobody waits.  `/repo/src/ocf_lru.c:433-439`. -/
  | free (s : St) (t l n c : Nat) : (s.th t).pc = .wait l n c → s.waiters c = false →
      Step hb s (s.go t (.found l c))
  /-- `_lru_unlock_hash` of a rejected line.  `/repo/src/ocf_lru.c:394-405`. -/
  | unhash (s : St) (t l n c : Nat) : (s.th t).pc = .unhash l n c →
      Step hb s ({ s with hash := if (s.th t).req.own (hb (s.core c)) then s.hash
                                  else upd s.hash (hb (s.core c)) none }.go t (.unline l n c))
  /-- `ocf_cache_line_unlock_wr` of a rejected line, previous line.
  `/repo/src/ocf_lru.c:424,429,435,469-472`. -/
  | unline (s : St) (t l n c : Nat) : (s.th t).pc = .unline l n c →
      Step hb s ({ s with writer := upd s.writer c none }.go t (.scan l n))
  /-- `ocf_lru_repart_locked` or `ocf_lru_set_hot`: the source list is chosen by the dirty bits;
  removing a line from a list it is not on is a corruption.
  `/repo/src/ocf_lru.c:269-284,474-481`. -/
  | take (s : St) (t l c : Nat) : (s.th t).pc = .found l c →
      Step hb s ({ s with
        seq := shift s.seq c
          (if (s.th t).req.dst ≠ (s.th t).req.src then getKey (s.th t).req.src l (!s.dirty c)
            else (s.th t).req.list l)
          (if (s.th t).req.dst ≠ (s.th t).req.src then getKey (s.th t).req.dst l (!s.dirty c)
            else (s.th t).req.list l)
        bug := s.bug || decide (c ∉ s.seq
          (if (s.th t).req.dst ≠ (s.th t).req.src then getKey (s.th t).req.src l (!s.dirty c)
            else (s.th t).req.list l)) }.go t (.release l (some c)))
  /-- Unlock the list.  `/repo/src/ocf_lru.c:483-484`. -/
  | release (s : St) (t l : Nat) (r : Option Nat) : (s.th t).pc = .release l r →
      Step hb s ({ s with lruLock := upd s.lruLock l none }.go t (.mark l r))
  /-- Nothing found on this list.  `/repo/src/ocf_lru.c:486-490,724-725`. -/
  | markEmpty (s : St) (t l : Nat) : (s.th t).pc = .mark l none →
      Step hb s { s with th := upd s.th t { s.th t with
        it := (afterEmpty (s.th t).it).1, pc := (afterEmpty (s.th t).it).2 } }
  /-- Line returned.  `/repo/src/ocf_lru.c:490-492`. -/
  | markFound (s : St) (t l c : Nat) : (s.th t).pc = .mark l (some c) →
      Step hb s (s.go t (.got c))
  /-- Assertions on the line and the slot.  `/repo/src/ocf_lru.c:727-738`. -/
  | check (s : St) (t c : Nat) : (s.th t).pc = .got c →
      Step hb s { s with
        th := upd s.th t { s.th t with
          pc := if (s.th t).req.src = freeId then .assign c else .inval c
          reqIdx := advance (s.th t).map (s.th t).reqIdx }
        bug := s.bug || s.dirty c ||
          decide ((s.th t).map[advance (s.th t).map (s.th t).reqIdx]? ≠ some .miss) }
  /-- `ocf_lru_invalidate` and `_lru_unlock_hash`; valid bits and counters are not in this
  model.  `/repo/src/ocf_lru.c:740-743`. -/
  | inval (s : St) (t c : Nat) : (s.th t).pc = .inval c →
      Step hb s ({ s with hash := if (s.th t).req.own (hb (s.core c)) then s.hash
                                  else upd s.hash (hb (s.core c)) none }.go t (.assign c))
  /-- `ocf_map_cache_line`, status, index lock mark.  `/repo/src/ocf_lru.c:745-758`. -/
  | assign (s : St) (t c : Nat) : (s.th t).pc = .assign c →
      Step hb s { s with
        core := fun x => if x = c then ((s.th t).req.core, (s.th t).req.first + (s.th t).reqIdx)
          else s.core x
        th := upd s.th t { s.th t with
          pc := .pick
          map := (s.th t).map.set (s.th t).reqIdx (.remapped c)
          reqIdx := (s.th t).reqIdx + 1
          got := (s.th t).got + 1 }
        bug := s.bug || decide ((s.th t).reqIdx + 1 = (s.th t).map.length ∧
          (s.th t).got + 1 ≠ (s.th t).req.want) }
  /-- Return from the function.  `/repo/src/ocf_lru.c:761`. -/
  | ret (s : St) (t : Nat) : (s.th t).pc = .done → Step hb s (s.go t .idle)
  /-- Elsewhere: take a write lock.  `/repo/src/utils/utils_alock.c:267-275`. -/
  | envLockWr (s : St) (t c : Nat) : (s.th t).pc = .idle → s.writer c = none → s.readers c = 0 →
      Step hb s { s with writer := upd s.writer c (some t) }
  /-- Elsewhere: drop a write lock.  A line that became dirty is on the dirty list by then
  (`set_cache_line_dirty` runs under the lock).  `/repo/src/utils/utils_cache_line.c:134-174`. -/
  | envUnlockWr (s : St) (t c : Nat) : (s.th t).pc = .idle → s.writer c = some t →
      (s.dirty c = true → ∀ k : Key, k.clean = true → c ∉ s.seq k) →
      Step hb s { s with writer := upd s.writer c none }
  /-- Elsewhere: take a read lock.  `/repo/src/utils/utils_alock.c:287-293`. -/
  | envLockRd (s : St) (c : Nat) : s.writer c = none →
      Step hb s { s with readers := upd s.readers c (s.readers c + 1) }
  /-- Elsewhere: drop a read lock.  `/repo/src/utils/utils_alock.c:304-314`. -/
  | envUnlockRd (s : St) (c : Nat) : 0 < s.readers c →
      Step hb s { s with readers := upd s.readers c (s.readers c - 1) }
  /-- Elsewhere: waiters come and go.  `/repo/src/utils/utils_alock.c:217-249`. -/
  | envWait (s : St) (c : Nat) (b : Bool) : Step hb s { s with waiters := upd s.waiters c b }
  /-- Elsewhere: set dirty bits under the write lock.
  `/repo/src/utils/utils_cache_line.c:134-174`. -/
  | envDirty (s : St) (t c : Nat) : (s.th t).pc = .idle → s.writer c = some t →
      Step hb s { s with dirty := upd s.dirty c true }
  /-- Elsewhere: then move it to the dirty list.  `/repo/src/ocf_lru.c:847-861`. -/
  | envDirtyList (s : St) (t c : Nat) (k : Key) : (s.th t).pc = .idle → s.writer c = some t →
      c ∈ s.seq k → s.dirty c = true → k.part ≠ freeId → s.lruLock k.idx = none →
      Step hb s { s with seq := shift s.seq c k ⟨k.part, k.idx, false⟩ }
  /-- Elsewhere: clear dirty bits under a write or a read lock (cleaner).
  `/repo/src/utils/utils_cache_line.c:92-132`. -/
  | envClean (s : St) (t c : Nat) :
      ((s.th t).pc = .idle ∧ s.writer c = some t) ∨ 0 < s.readers c →
      Step hb s { s with dirty := upd s.dirty c false }
  /-- Elsewhere: then move it to the clean list.  `/repo/src/ocf_lru.c:831-845`. -/
  | envCleanList (s : St) (t c : Nat) (k : Key) :
      ((s.th t).pc = .idle ∧ s.writer c = some t) ∨ 0 < s.readers c →
      c ∈ s.seq k → s.dirty c = false → k.part ≠ freeId → s.lruLock k.idx = none →
      Step hb s { s with seq := shift s.seq c k ⟨k.part, k.idx, true⟩ }
  /-- Elsewhere: change the partition under the write lock, or, to another class, under a read
  lock.  `/repo/src/ocf_lru.c:286-301`. -/
  | envRepart (s : St) (t c p : Nat) (k : Key) :
      ((s.th t).pc = .idle ∧ s.writer c = some t) ∨ (0 < s.readers c ∧ p ≠ freeId) →
      c ∈ s.seq k → s.lruLock k.idx = none →
      Step hb s { s with seq := shift s.seq c k (getKey p k.idx (!s.dirty c)) }
  /-- Elsewhere: touch a line; no line lock is needed.  `/repo/src/ocf_lru.c:765-798`. -/
  | envTouch (s : St) (c : Nat) (k : Key) : c ∈ s.seq k → s.lruLock k.idx = none →
      Step hb s { s with seq := shift s.seq c k k }
  /-- Elsewhere: change the mapping under the write lock.
  `/repo/src/metadata/metadata_collision.c:93-168`. -/
  | envMap (s : St) (t c : Nat) (x : Nat × Nat) : (s.th t).pc = .idle → s.writer c = some t →
      Step hb s { s with core := fun y => if y = c then x else s.core y }
  /-- Elsewhere: lock a bucket.  `/repo/src/concurrency/ocf_metadata_concurrency.c:215-227`. -/
  | envHashLock (s : St) (t b : Nat) : (s.th t).pc = .idle → s.hash b = none →
      Step hb s { s with hash := upd s.hash b (some t) }
  /-- Elsewhere: unlock a bucket.
  `/repo/src/concurrency/ocf_metadata_concurrency.c:229-241`. -/
  | envHashUnlock (s : St) (t b : Nat) : (s.th t).pc = .idle → s.hash b = some t →
      Step hb s { s with hash := upd s.hash b none }

/-- Start: no locks held, no thread inside, each line on at most one list, the list of its
index, and no dirty line on a clean list.  `/repo/src/ocf_lru.c:800-829`. -/
structure Init (s : St) : Prop where
  writer : ∀ c, s.writer c = none
  readers : ∀ c, s.readers c = 0
  lru : ∀ l, s.lruLock l = none
  hash : ∀ b, s.hash b = none
  idle : ∀ t, (s.th t).pc = .idle
  bug : s.bug = false
  nodup : ∀ k, (s.seq k).Nodup
  once : ∀ k k' c, c ∈ s.seq k → c ∈ s.seq k' → k = k'
  idx : ∀ k c, c ∈ s.seq k → k.idx = c % W
  clean : ∀ k c, c ∈ s.seq k → k.clean = true → s.dirty c = false

end Verif.Evict
