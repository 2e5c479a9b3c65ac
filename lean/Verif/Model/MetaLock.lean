import Verif.Model.HashLock

/-!
Model of the metadata locks and of the code paths that take them.
Sources: `/repo/src/concurrency/ocf_metadata_concurrency.c`,
`/repo/src/concurrency/ocf_metadata_concurrency.h`, `/repo/src/ocf_lru.c`,
`/repo/src/utils/utils_cache_line.h`, `/repo/src/metadata/metadata_io.c`,
`/repo/src/engine/engine_common.c`.

A thread is a program that blocks in `acq`, never blocks in `tryAcq`, and gives locks back in
`rel`. Programs are trees because a try-lock continues in one of two ways.
-/

namespace Verif.MetaLock

/-- The locks of `struct ocf_metadata_lock`, `/repo/src/metadata/metadata_structs.h:46-57`: the
stripes of the global lock, the hash bucket locks, the collision page locks and the LRU list
locks. The partition spinlocks are never taken. -/
inductive Lock where
  | glob (i : Nat)
  | hash (h : Nat)
  | page (p : Nat)
  | lru (j : Nat)
deriving Repr, DecidableEq

/-- `OCF_METADATA_RD` and `OCF_METADATA_WR`,
`/repo/src/concurrency/ocf_metadata_concurrency.h:12-13`. -/
inductive Mode where
  | rd
  | wr
deriving Repr, DecidableEq

/-- A stretch of code that runs under the protection of a lock, as its author sees it:
exclusive and shared access to the metadata
(`/repo/src/concurrency/ocf_metadata_concurrency.c:141-206`), the buckets of a request
(`:460-520`), one bucket (`:264-386`), a collision page (`:522-544`), an LRU list
(`/repo/src/concurrency/ocf_metadata_concurrency.h:31-53`). Ghost: nothing in the code reads it. -/
inductive Sect where
  | excl
  | shared
  | buckets (m : Mode) (r : HashLock.Req)
  | bucket (m : Mode) (h : Nat)
  | page (m : Mode) (p : Nat)
  | lru (m : Mode) (j : Nat)
deriving Repr, DecidableEq

/-- What a thread does with the locks. `acq`/`rel` are `env_rwsem_down_*`/`env_rwsem_up_*` and
`env_rwlock_*_lock`/`unlock`; `tryAcq` is `env_rwsem_down_*_trylock`; `note` enters or leaves a
stretch of code. The primitives as used in
`/repo/src/concurrency/ocf_metadata_concurrency.c:141-262`. -/
inductive Prog where
  | done
  | acq (l : Lock) (m : Mode) (k : Prog)
  | tryAcq (l : Lock) (m : Mode) (ok no : Prog)
  | rel (l : Lock) (m : Mode) (k : Prog)
  | note (s : Sect) (on : Bool) (k : Prog)
deriving Repr

/-- a loop taking locks one after the other, as in
`/repo/src/concurrency/ocf_metadata_concurrency.c:146-148`. -/
def acqAll (ls : List Lock) (m : Mode) (k : Prog) : Prog := ls.foldr (fun l k => .acq l m k) k

/-- a loop giving locks back one after the other, as in
`/repo/src/concurrency/ocf_metadata_concurrency.c:177-178`. -/
def relAll (ls : List Lock) (m : Mode) (k : Prog) : Prog := ls.foldr (fun l k => .rel l m k) k

/-- run `body` as the stretch of code `s`: what a caller does between a lock function and its
unlock function, e.g. `/repo/src/engine/engine_wb.c:35-47`. -/
def inSect (s : Sect) (body : Prog → Prog) (k : Prog) : Prog :=
  .note s true (body (.note s false k))

/-- `ocf_metadata_start_exclusive_access`,
`/repo/src/concurrency/ocf_metadata_concurrency.c:141-149`; `n` is `OCF_NUM_GLOBAL_META_LOCKS`. -/
def startExcl (n : Nat) (k : Prog) : Prog := acqAll ((List.range n).map .glob) .wr k

/-- `ocf_metadata_end_exclusive_access`,
`/repo/src/concurrency/ocf_metadata_concurrency.c:172-179`. -/
def endExcl (n : Nat) (k : Prog) : Prog := relAll ((List.range n).reverse.map .glob) .wr k

/-- the loop of `ocf_metadata_try_start_exclusive_access` and its roll back,
`/repo/src/concurrency/ocf_metadata_concurrency.c:157-169`; `taken` are the stripes already
locked, the last one first. -/
def tryAll (taken : List Lock) : List Lock → Prog → Prog → Prog
  | [], ok, _ => ok
  | l :: ls, ok, no => .tryAcq l .wr (tryAll (l :: taken) ls ok no) (relAll taken .wr no)

/-- `ocf_metadata_try_start_exclusive_access`,
`/repo/src/concurrency/ocf_metadata_concurrency.c:151-170`. -/
def tryExcl (n : Nat) (ok no : Prog) : Prog := tryAll [] ((List.range n).map .glob) ok no

/-- `ocf_metadata_start_shared_access`,
`/repo/src/concurrency/ocf_metadata_concurrency.c:188-193`. -/
def startShared (idx : Nat) (k : Prog) : Prog := .acq (.glob idx) .rd k

/-- `ocf_metadata_end_shared_access`,
`/repo/src/concurrency/ocf_metadata_concurrency.c:202-206`. -/
def endShared (idx : Nat) (k : Prog) : Prog := .rel (.glob idx) .rd k

/-- `ocf_hb_id_prot_lock_common`, `/repo/src/concurrency/ocf_metadata_concurrency.c:315-321`, with
`ocf_hb_id_naked_lock`, `:215-227`; used by `ocf_hb_cline_prot_lock_rd/wr` and
`ocf_hb_id_prot_lock_wr`, `:334-379`. -/
def protLock (idx h : Nat) (m : Mode) (k : Prog) : Prog := startShared idx (.acq (.hash h) m k)

/-- `ocf_hb_id_prot_unlock_common`, `/repo/src/concurrency/ocf_metadata_concurrency.c:324-330`. -/
def protUnlock (idx h : Nat) (m : Mode) (k : Prog) : Prog := .rel (.hash h) m (endShared idx k)

/-- `ocf_hb_req_prot_lock_rd` and `ocf_hb_req_prot_lock_wr`,
`/repo/src/concurrency/ocf_metadata_concurrency.c:460-494`. -/
def reqLock (idx : Nat) (r : HashLock.Req) (m : Mode) (k : Prog) : Prog :=
  startShared idx (acqAll (r.lockOrder.map .hash) m k)

/-- `ocf_hb_req_prot_unlock_rd` and `ocf_hb_req_prot_unlock_wr`,
`/repo/src/concurrency/ocf_metadata_concurrency.c:472-520`. -/
def reqUnlock (idx : Nat) (r : HashLock.Req) (m : Mode) (k : Prog) : Prog :=
  relAll (r.lockOrder.map .hash) m (endShared idx k)

/-- `ocf_hb_req_prot_lock_upgrade`,
`/repo/src/concurrency/ocf_metadata_concurrency.c:496-508`. -/
def reqUpgrade (r : HashLock.Req) (k : Prog) : Prog :=
  relAll (r.lockOrder.map .hash) .rd (acqAll (r.lockOrder.map .hash) .wr k)

/-- Locks taken and given back while buckets are held: reading or moving a line on its LRU list
(`ocf_lru_hot_cline`, `/repo/src/ocf_lru.c:765-798`; `ocf_lru_repart`, `:286-292`), and work on a
collision page under shared access inside which lines move between LRU lists
(`/repo/src/utils/utils_cache_line.h:170-322`, `/repo/src/metadata/metadata_misc.c:22-36`,
`/repo/src/ocf_lru.c:831-861`). -/
inductive Work where
  | lru (m : Mode) (j : Nat)
  | page (p : Nat) (js : List Nat)
deriving Repr

/-- lock one LRU list around some work,
`/repo/src/concurrency/ocf_metadata_concurrency.h:31-53`. -/
def lruSect (m : Mode) (j : Nat) (k : Prog) : Prog :=
  .acq (.lru j) m (inSect (.lru m j) id (.rel (.lru j) m k))

/-- moving lines on LRU lists, one list lock at a time,
`/repo/src/ocf_lru.c:841-844`, `:857-860`. -/
def lruSects (js : List Nat) (k : Prog) : Prog := js.foldr (fun j k => lruSect .wr j k) k

/-- `ocf_metadata_start_collision_shared_access` to `ocf_metadata_end_collision_shared_access`,
`/repo/src/metadata/metadata_collision.c:170-194`, around work that moves lines on LRU lists. -/
def pageSect (m : Mode) (p : Nat) (js : List Nat) (k : Prog) : Prog :=
  .acq (.page p) m (inSect (.page m p) (lruSects js) (.rel (.page p) m k))

/-- the locks of one piece of work, see `Work`; `/repo/src/utils/utils_cache_line.h:239-266` is
an example. -/
def Work.run : Work → Prog → Prog
  | .lru m j, k => lruSect m j k
  | .page p js, k => pageSect .rd p js k

/-- several pieces of work one after the other, as the map loops in
`/repo/src/utils/utils_cache_line.h:189-214`. -/
def works (ws : List Work) (k : Prog) : Prog := ws.foldr (fun w k => w.run k) k

/-- The scan of one LRU list for a victim, `/repo/src/ocf_lru.c:407-438` and `:467-471`: `cs` are
the buckets of the lines met from the tail whose cache line lock could be taken and which do not
belong to the request itself, each with whether somebody waits for the cache line
(`ocf_cache_line_are_waiters`). The list lock is held. `_lru_trylock_hash`/`_lru_unlock_hash`
(`:381-405`) skip buckets of the request. -/
def scan (r : HashLock.Req) : List (Nat × Bool) → (Nat → Prog) → Prog → Prog
  | [], _, no => no
  | (c, waiters) :: cs, found, no =>
    if r.hashInRange c then
      if waiters then scan r cs found no else found c
    else
      .tryAcq (.hash c) .wr
        (if waiters then .rel (.hash c) .wr (scan r cs found no) else found c)
        (scan r cs found no)

/-- `lru_iter_eviction_next`, `/repo/src/ocf_lru.c:451-494`: visit LRU lists until a victim is
found; `vis` are the lists visited, each with the candidates met on it. -/
def evictNext (r : HashLock.Req) : List (Nat × List (Nat × Bool)) → (Nat → Prog) → Prog → Prog
  | [], _, no => no
  | (j, cs) :: vis, found, no =>
    .acq (.lru j) .wr
      (scan r cs (fun c => .rel (.lru j) .wr (found c)) (.rel (.lru j) .wr (evictNext r vis found no)))

/-- what `ocf_lru_req_clines` does with a victim from bucket `c` on collision page `p`,
`/repo/src/ocf_lru.c:740-745`: `ocf_lru_invalidate` (`:654-671`), `_lru_unlock_hash`, then
`ocf_map_cache_line` (`/repo/src/engine/engine_common.c:310-329`). -/
def useVictim (r : HashLock.Req) (p c : Nat) (k : Prog) : Prog :=
  inSect (.bucket .wr c) (pageSect .rd p [])
    (if r.hashInRange c then pageSect .rd p [] k
     else .rel (.hash c) .wr (pageSect .rd p [] k))

/-- the loop of `ocf_lru_req_clines`, `/repo/src/ocf_lru.c:715-760`: one entry per wanted line,
with the lists visited and the collision page of the victim; it stops when nothing is found. -/
def evictAll (r : HashLock.Req) : List (List (Nat × List (Nat × Bool)) × Nat) → Prog → Prog
  | [], k => k
  | (vis, p) :: es, k => evictNext r vis (fun c => useVictim r p c (evictAll r es k)) k

/-- The code paths that take metadata locks. The stripe index `idx` is below the number of
stripes (`ocf_metadata_concurrency_next_idx`,
`/repo/src/concurrency/ocf_metadata_concurrency.h:15-18`). The recovery code that takes bucket
locks without global access (`/repo/src/mngt/ocf_mngt_cache.c:569`) is not included. -/
inductive Task where
  /-- management code under exclusive access, e.g. `/repo/src/mngt/ocf_mngt_common.c:108-126`. -/
  | excl (ws : List Work)
  /-- ALRU under exclusive access if it can be had at once, `/repo/src/cleaning/alru.c:891-932`;
  the cleaning order it issues runs later on the queue. -/
  | tryExcl (ws : List Work)
  /-- `ocf_lru_clean`: shared access and all LRU lists, `/repo/src/ocf_lru.c:626-643`. -/
  | lruAll (idx lists : Nat)
  /-- a metadata write copying pages under shared access and exclusive page access,
  `/repo/src/metadata/metadata_io.c:202-217` with
  `/repo/src/metadata/metadata.c:622-637`. -/
  | fill (idx : Nat) (ps : List Nat)
  /-- one bucket, e.g. `/repo/src/utils/utils_cleaner.c:337-355`. -/
  | bucket (idx : Nat) (m : Mode) (h : Nat) (ws : List Work)
  /-- the buckets of a request, e.g. `/repo/src/engine/engine_wb.c:35-47`. -/
  | req (idx : Nat) (m : Mode) (r : HashLock.Req) (ws : List Work)
  /-- `ocf_engine_prepare_clines` when it has to map lines,
  `/repo/src/engine/engine_common.c:479-529`: lookup under read locks, upgrade, lookup again,
  evict or take free lines, map, unlock. -/
  | prepare (idx : Nat) (r : HashLock.Req) (ws ws' : List Work)
      (es : List (List (Nat × List (Nat × Bool)) × Nat)) (ws'' : List Work)
deriving Repr

/-- the program of a code path; citations at the constructors of `Task`
(`/repo/src/engine/engine_common.c:460-538` for the longest). -/
def Task.run (n : Nat) : Task → Prog → Prog
  | .excl ws, k => startExcl n (inSect .excl (works ws) (endExcl n k))
  | .tryExcl ws, k => MetaLock.tryExcl n (inSect .excl (works ws) (endExcl n k)) k
  | .lruAll idx lists, k =>
    startShared idx (inSect .shared
      (fun k => acqAll ((List.range lists).map .lru) .wr
        (relAll ((List.range lists).map .lru) .wr k)) (endShared idx k))
  | .fill idx ps, k =>
    startShared idx (inSect .shared (fun k => ps.foldr (fun p k => pageSect .wr p [] k) k)
      (endShared idx k))
  | .bucket idx m h ws, k =>
    protLock idx h m (inSect (.bucket m h) (works ws) (protUnlock idx h m k))
  | .req idx m r ws, k =>
    reqLock idx r m (inSect (.buckets m r) (works ws) (reqUnlock idx r m k))
  | .prepare idx r ws ws' es ws'', k =>
    reqLock idx r .rd (inSect (.buckets .rd r) (works ws)
      (reqUpgrade r (inSect (.buckets .wr r)
        (fun k => works ws' (evictAll r es (works ws'' k))) (reqUnlock idx r .wr k))))

/-- a thread runs code paths one after the other (a queue thread takes the next request,
`/repo/src/ocf_queue.c:208-236`). -/
def runAll (n : Nat) (ts : List Task) : Prog := ts.foldr (fun t k => t.run n k) .done

/-- A reader/writer semaphore, `/repo/env/posix/ocf_env.h:299-336`: number of readers inside,
whether a writer is inside. -/
structure Sem where
  readers : Nat
  writer : Bool
deriving Repr, DecidableEq

/-- A thread: the locks it has obtained and not given back, the stretches of code it is in, and
what it still has to do. `held` and `sect` are ghost; a thread context of the engine such as
`/repo/src/ocf_queue.c:208-236`. -/
structure Thread where
  held : List (Lock × Mode)
  sect : List Sect
  prog : Prog

/-- All locks and threads; `struct ocf_metadata_lock`,
`/repo/src/metadata/metadata_structs.h:46-57`. -/
structure State where
  sem : Lock → Sem
  ths : List Thread

/-- whether a semaphore can be taken, `/repo/env/posix/ocf_env.h:299-336` (`pthread_rwlock`). -/
def Sem.free (s : Sem) : Mode → Bool
  | .rd => !s.writer
  | .wr => !s.writer && s.readers == 0

/-- down, `/repo/env/posix/ocf_env.h:299-336`. -/
def Sem.down (s : Sem) : Mode → Sem
  | .rd => { s with readers := s.readers + 1 }
  | .wr => { s with writer := true }

/-- up, `/repo/env/posix/ocf_env.h:299-336`. -/
def Sem.up (s : Sem) : Mode → Sem
  | .rd => { s with readers := s.readers - 1 }
  | .wr => { s with writer := false }

/-- change one lock of `struct ocf_metadata_lock`,
`/repo/src/metadata/metadata_structs.h:46-57`. -/
def setSem (f : Lock → Sem) (l : Lock) (s : Sem) : Lock → Sem := fun x => if x = l then s else f x

/-- One step of one thread, `/repo/src/concurrency/ocf_metadata_concurrency.c:141-262`. A try-lock
may fail although the lock is free (it is allowed to), but succeeds only when it is free. -/
inductive Step (s : State) : State → Prop where
  | acq (i : Nat) (t : Thread) (l : Lock) (m : Mode) (k : Prog) (hi : s.ths[i]? = some t)
      (hp : t.prog = .acq l m k) (hf : (s.sem l).free m = true) :
      Step s ⟨setSem s.sem l ((s.sem l).down m), s.ths.set i ⟨(l, m) :: t.held, t.sect, k⟩⟩
  | tryOk (i : Nat) (t : Thread) (l : Lock) (m : Mode) (ok no : Prog) (hi : s.ths[i]? = some t)
      (hp : t.prog = .tryAcq l m ok no) (hf : (s.sem l).free m = true) :
      Step s ⟨setSem s.sem l ((s.sem l).down m), s.ths.set i ⟨(l, m) :: t.held, t.sect, ok⟩⟩
  | tryNo (i : Nat) (t : Thread) (l : Lock) (m : Mode) (ok no : Prog) (hi : s.ths[i]? = some t)
      (hp : t.prog = .tryAcq l m ok no) :
      Step s ⟨s.sem, s.ths.set i ⟨t.held, t.sect, no⟩⟩
  | rel (i : Nat) (t : Thread) (l : Lock) (m : Mode) (k : Prog) (hi : s.ths[i]? = some t)
      (hp : t.prog = .rel l m k) :
      Step s ⟨setSem s.sem l ((s.sem l).up m), s.ths.set i ⟨t.held.erase (l, m), t.sect, k⟩⟩
  | enter (i : Nat) (t : Thread) (x : Sect) (k : Prog) (hi : s.ths[i]? = some t)
      (hp : t.prog = .note x true k) :
      Step s ⟨s.sem, s.ths.set i ⟨t.held, x :: t.sect, k⟩⟩
  | leave (i : Nat) (t : Thread) (x : Sect) (k : Prog) (hi : s.ths[i]? = some t)
      (hp : t.prog = .note x false k) :
      Step s ⟨s.sem, s.ths.set i ⟨t.held, t.sect.erase x, k⟩⟩

/-- all locks free, every thread about to start its code paths; after
`ocf_metadata_concurrency_init` and `ocf_metadata_concurrency_attached_init`,
`/repo/src/concurrency/ocf_metadata_concurrency.c:10-117`. -/
def start (n : Nat) (tss : List (List Task)) : State :=
  ⟨fun _ => ⟨0, false⟩, tss.map (fun ts => ⟨[], [], runAll n ts⟩)⟩

/-- `alru_clean` when the cache device completes reads in the submitting context and the queue
runs requests in the pushing context (`OCF_QUEUE_ALLOW_SYNC`,
`/repo/src/utils/utils_cleaner.c:546-547`): `_ocf_cleaner_fire_core` takes a bucket
(`:512-514`) while `/repo/src/cleaning/alru.c:902-921` still has exclusive access. -/
def alruSync (n idx h : Nat) : Prog :=
  tryExcl n
    (inSect .excl (fun k => protLock idx h .rd (protUnlock idx h .rd k)) (endExcl n .done)) .done

end Verif.MetaLock
