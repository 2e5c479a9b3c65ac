# Formal model of Open-CAS/ocf — design

Model and proofs are in Lean 4 (`lean/Verif/`), written by reading the C sources in
`/repo` at the pinned commit. Nothing in `/repo` is built or run.

## Trusted base

* Lean 4.33.0's kernel, and Mathlib (only single modules, mainly list/finset facts).
* Axioms: at most `propext`, `Classical.choice`, `Quot.sound`. No axioms of our own,
  no `sorry`, no `native_decide`, no `bv_decide`.
* The hand translation from C to Lean. Every definition cites the lines it models and
  states its simplifications. Nothing checks this translation mechanically.

## Conventions of the model

* A definition models one C function (or a named fragment) and carries
  `/repo/<file>:<lines>` in its comment.
* `ENV_BUG()`/`ENV_BUG_ON()` and C undefined behaviour are a distinct outcome
  (`none`/`Except.error`), never silently totalised. Theorems state reachability or
  unreachability of that outcome.
* Atomic instructions and lock-protected sections are the steps of interleaving
  models. Sequential consistency is assumed for atomics.
* Specifications are stated on plain data (lists, functions, sets), apart from the
  model's helpers. Each property file ends with `example`s showing that hypotheses are
  satisfiable by non-trivial states.
* Where the C code does not have the property, the negation is proved for a concrete
  reachable witness and the part that does hold is proved as `*_partial`.

## Plan per property

| id | model | proof method |
|----|-------|--------------|
| C01 | `Engine`: request-granular engine (WT/WB/WA/WI/WO/PT, read with backfill, discard, cleaner, eviction) over sector maps | refinement to a plain sector array; coupling invariant by induction over histories |
| C02 | `Crash`: small-step device operations, volatile RAM metadata vs on-device metadata, recovery | invariant over every prefix (= crash point) |
| C03 | `Bits`: masks on `BitVec`/`Nat` bit operations as in metadata_bit.h | bitwise extensionality |
| C04 | `Collision`: arrays of hash heads and next/prev links | representation invariant: chains are lists, refinement to a finite map |
| C05 | `Lru`: index list with head/tail/last_hot/num_hot | representation relation to a `List`, no-`ENV_BUG` theorem |
| C06, C07 | `Alock`: atomic access counters, per-entry waiter queues, any number of requests | inductive invariant over all interleavings |
| C08 | `AsyncLock` | inductive invariant over all interleavings |
| C09 | `HashLock`: MIN/MAX/GAP iteration | arithmetic; list of visited buckets = sorted duplicate-free set |
| C10 | `Refcnt`: single atomic steps of env_refcnt | inductive invariant; race witness where the property fails |
| C11, C12 | `Space`: eviction amount and class traversal | direct + induction over class list |
| C13 | `Lru` eviction iterator | induction over the scan |
| C14 | `Superblock`: flapping copies, crash at any device write | invariant over prefixes; witness for error-then-crash |
| C15 | `MetaFlush`: page collection, sort, run merging | list induction |
| C16 | `MetaIo`: chunk counter with any number of workers | inductive invariant over interleavings |
| C17 | `Layout`: size fixpoint loop, segment offsets | loop exit analysis |
| C18, C19 | `Cleaner` | list induction, state machine per line |
| C20 | `Composite` | induction over members |
| C21 | `Generator`: bit reversal | number-theoretic bijection |
| C22 | `Parallelize` | interleaving invariant, sharding arithmetic |
| C23 | `Pipeline` | induction over steps |
| C24 | `Forward`: reference counted tokens | interleaving invariant |
| C25 | `Queue` | interleaving invariant |
| C26 | `Nhit` | ring buffer + chains, representation invariant |
| C27 | `SeqCutoff` | stream table refinement; witness for the stale-key defect |
| C28 | `Alru` | representation relation to `List` |
| C29 | `Acp` | invariant; witnesses for two defects |
| C30, C31 | `Account` | counting invariant |
| C32 | `FlushMngt` | induction over portions |
| C33 | `Mode` | case analysis with independent specification |
| C34 | `Geometry` | arithmetic, list induction |
| C35 | `Recovery` | per-line decision, sharding |
| C36 | `SbValidate` | case analysis |
| C37 | `IdxList` | representation relation |
| C38 | `IoClass` | witness for the missing rollback, partial for success |
| C39 | `CoreId` | bit arithmetic |
| C40 | `Discard` | step machine |
| C41 | `Mpool` | arithmetic |
| C42 | `Stats` | invariant |
| C44 | `Evict` | same model as C13 |
| C45, C46 | `Cleaner` | list induction; interleaving invariant |
| C47 | `MetaLock`: threads as programs over reader/writer locks | lock order, protocol invariant, measure |
| C48 | `LruClean`: callers of the eviction cleaner over shared entries | interleaving invariant |
| C49 | `MetaDev`: page locks, copies and device writes of any number of flushes | interleaving invariant over page versions |
| C50 | `MetaRaw`: containers of metadata, in one piece and by pages | addresses, copies on the device, fold over pages |
| C51 | `Passive`: writes to a standby cache, followed in memory | order of lock grants as a ghost number, list of counted requests |
| C52 | `ReqRef`: references on a request through all engines | each C function as a small program of get, put, use, end, call, start of another thread |
| C53 | `ReqAlloc`: making and freeing requests | counters and allocations as an account over live requests and calls under way |
| C54 | `MngtLock`: management lock, life of a cache | any number of tasks, every access to a counter one step |
| C55 | `CoreMngt`: adding, attaching, detaching, removing cores | every call that can fail has its result as an input; ghost fields for leaks, NULL, freed memory |
| C56 | `PolicySwitch`: changing the cleaning policy | threads inside calls, one management operation, the context as the policy that allocated it |
| C57 | `Ctx`: the context of the library | references, types by id, pool, counts of what is held over all contexts |
| C58 | `Volume`: life of volumes, composite volumes | volumes at places with their allocations; exact account; list induction over members |
| C59 | `Submit`: the library's own submissions | one submission and its parts with completions at any moment; invariant by program point; tiling of the range |
| C60 | `Promo`: the promotion policy of a cache | policy, type and parameters in the metadata, counts of every allocation; one invariant over all calls |
| C61 | `QueueLife`: the life of queues and of the cache they keep | references of queues and cache, list by addresses that may be used again; one invariant for any caller, one for callers that keep two rules |
| C62 | `Realloc`: memory that grows on demand | memory as a map from addresses to blocks of bytes with the allocator each came from; invariant, content as a function of the content before |
| C63 | `CacheStart`: starting a cache, and undoing it | one flag per resource, count of misuses, each label of the error path a function; exact result of every failing step |
| C64 | `RawAtomic`: making invalid sectors persistent in an atomic cache | commands counted over each byte against marks; contents of the device; call and device interleaved, invariant over reference count |
| C65 | `CacheVisit`: visiting the caches of a context | one visit and others interleaved; references held by the visit against the counters, progress of the visit as a relation to the list |
| C66 | `CleanParam`: parameters of cleaning, when ALRU cleans | ranges as a table apart from the code, invariant over all calls; modular arithmetic of the clocks |
| C43 | `RbTree` | pointer-level heap, refinement to a search tree; balance bound |

Properties that cannot be expressed: none so far. Real-time behaviour, memory
allocation addresses, and the exact C memory model are outside the model.

## Modules: what is modelled, what is not, what was found

Each entry names the C code the model covers, what it leaves out or assumes, and defects of the code that
are *proved* about the model (theorem names in code font). The definitions carry the exact lines.

**Engine** (C01, C02). `engine_{rd,pt,wo,wt,wb,wi,bf,wa,inv,discard}.c`, lookup/remap/lock of `engine_common.c`, the
cleaner and eviction as they act on lines; any number of concurrent requests, sector-granular transfers,
RAM metadata and on-device metadata, power failure and recovery, failing data transfers and metadata flushes of every
kind. A discard leaves any value in its sectors; one of several passes is taken as several discards called together.
Not modelled: `engine_d2c.c`, torn sectors and metadata pages, volatile device caches, the metadata
flush on errors of atomic volumes. Without write-back requests nothing else is assumed
(`reads_permitted_no_wb`: any races, errors and power failures). With write-back, found: the cleaner writes whole valid
lines and can overwrite a newer write of a write-invalidate request (`cleaner_overwrites_write_invalidate`); a purge
drops a dirty mapping before the metadata is flushed, in a write-invalidate write (`purge_loses_acknowledged_write`) and
in a discard (`discard_loses_acknowledged_write`); a failing write drops the
older dirty data of its sectors (`failed_write_loses_older_write`); a write-through write acknowledged in spite of
its failing cache write does not flush the metadata of the dirty sectors it drops
(`cache_error_loses_acknowledged_write`); after a failed metadata flush the next write to the sector is acknowledged
without a flush (`flush_error_loses_acknowledged_write`). Each is proved with all other conditions of the theorem met,
so none of the conditions can be left out.

**Bits** (C03). `metadata_bit.h`, `metadata_status.h`, sector status part of `utils_cache_line.c/h`. All five widths.

**Collision** (C04). `metadata_collision.c`, hash function of `metadata_misc.h`, lookup and map check of
`engine_common.c`. Callers insert only after a miss (C13, C30).

**Lru** (C05, C30), **Evict** (C13, C44). `ocf_lru.c` list operations, hot/cold balance, repart, initialisation;
the eviction iterator, `ocf_lru_req_clines` and its locks step by step with all other users of the locks.

**Alock** (C06, C07). `utils_alock.c` and its cache line instance. Atomic access words, wait lists, allocation
failures. Found: a request with two lines in one wait list bucket leaks a lock if an allocation fails (`lock_leaked`).

**AsyncLock** (C08), **Refcnt** (C10), **HashLock** (C09), **Queue** (C25), **Forward** (C24), **Parallelize** (C22),
**Pipeline** (C23). One step per atomic operation or spin lock section. Found: freeze callback with a user inside
(`fires_with_user_inside`), error lost between two parts completing at once (`error_lost`).

**Space** (C11, C12). `ocf_space.c`, `utils_user_part.c/h`. Found: `below_min_race`.

**Superblock** (C14), **SbValidate** (C36). Save and load of the configuration segments with the two flapping copies and
crash at any write; validation field by field. Assumed: checksums collision free on the contents that occur.
Found: `both_lost`, `probe_ignores_checksum`, `uuid_not_restored`.

**MetaFlush** (C15), **MetaIo** (C16). Marked lines, pages, runs, contents of the pages written, completion; the
parallel transfer of a range. Found: `refused_never_told`, `late_error_never_reported`, `lock_failure_never_reported`.
Seen, not modelled: the results of the fill and drain callbacks are ignored although the header promises to report them;
`count = 0` is never completed.

**Layout** (C17). Segment sizes, search for the number of lines, offsets, start of data. Found: 32-bit product in the
posix environment (`posix_overlap`, `posix_overwrites_metadata`).

**Cleaner** (C18, C19, C45, C46). `utils_cleaner.c`. Found: `lost_error_cleans`, `clean_sectors_rewritten`,
`completes_twice`, `completes_early`.

**Composite** (C20), **Geometry** (C34), **Mpool** (C41), **CoreId** (C39), **Generator** (C21). Arithmetic of the
code with its integer widths where they matter. Found: `populate_undefined`.

**Nhit** (C26). `promotion/nhit`. Found: `tracked_twice`.

**RbTree** (C43), **SeqCutoff** (C27). Pointer-level red-black tree; streams, promotion, checks. Found:
`decrease_splits_equal`, `promotion_loses_streams`, `tie_ignores_longer`, `other_core_continues`.

**Alru** (C28), **Acp** (C29). Lists and buckets of the cleaning policies. Found: `dirty_ratio_overflow`,
`hidden_after_choose`, `backoff_inverted`, `load_hides`, `load_asserts`, `last_shard_skipped`,
`alloc_failure_asserts`.

**Account** (C31), **Stats** (C42). Counters of cached and dirty lines; collection of statistics concurrent with updates.
Found: `cached_drifts`, `cached_negative`, `reset_underflow`, `usage_underflow`.

**FlushMngt** (C32). `ocf_mngt_flush.c`. Found: `early_completion_asserts`.

**Mode** (C33). `cache_engine.c`, mode resolution of `ocf_core.c` and `ocf_request.c`. Found: `fast_path_ignores_mode`.

**Recovery** (C35). Rebuild of the metadata after a dirty shutdown. Found: `duplicate_accepted`.

**IdxList** (C37), **IoClass** (C38). `utils_list`, `ocf_mngt_io_class.c`. Found: `rollback_lost`.

**Discard** (C40). `engine_discard.c` and the zeroing engine. Found: `lock_error_ignored`, `flush_error_ignored`, `recached`,
`refused_keeps_reference`, `zero_twice`.

Axioms per theorem: `AXIOMS.md` (output of `#print axioms`). Wrong programs tried against the theorems:
`seeded/LOG.jsonl`, one line per attempt.

**MetaLock** (C47). All functions of `ocf_metadata_concurrency.c/h` except set-up, and the code paths that call them:
management sections, ALRU, `ocf_lru_clean`, metadata writes, single buckets, requests, mapping with eviction. Lock order:
stripes, buckets, collision pages, LRU lists. Cache line locks and recovery are outside. Found: `alru_sync_deadlock`.

**LruClean** (C48). `ocf_lru_clean`, `ocf_lru_clean_end`. The scan yields any lines; the cleaner is a step that completes at
any time. Found: `stuck_after_empty_run` (`cleaner_running` is not reset when no line was found, `ocf_lru.c:645-648`).

**MetaDev** (C49). `metadata_io_restart_req`, `metadata_io_do`, `metadata_io_end`, `ocf_mio_concurrency.c`, the fill functions
of `metadata_raw.c`. Contents of a page are a version number; the device stores sectors of a write under way in any order.
Reads, and flushes of segments without page locks (superblock, under the management lock), are outside.

**MetaRaw** (C50). `metadata_raw.c` (RAM containers), `metadata_raw_dynamic.c` (UUIDs of the cores), the checksum of
`metadata_segment.c`. A byte is a number, `env_crc32` any function. The volatile and atomic containers are outside, and so is the
split of a flush into requests (C16). Found: `zero_page_rejected` (a page allocated for an entry that is never stored makes the
next load fail its checksum: `ocf_mngt_cache_add_core` with a UUID above 4092 bytes leaves such a page) and `count_drifts`.

**C51, standby cache.** `ocf_metadata_passive_update`, the page locks of `ocf_pio_concurrency.c` and
`ocf_cache_volume_submit_io` are modelled step by step for any number of requests. The two containers must be apart and
lie within the metadata (`Cfg.Ok`, which is C17). Taking of locks is free in order (a lock may be taken, given back and
handed over in any way); that waiters are served is C07. Flushes and discards and the queue between lock and resume are
left out. Defects proved: a request refused because the cache is not standby keeps its reference to `refcnt.metadata`
(`ocf_cache.c:325-332`); a write of no bytes at address 0 copies all pages of both containers from its buffer, without
locks (`metadata_passive_update.c:35`, the end page wraps).

**Request references (`ReqRef`, C52).** About 75 functions of the core volume and the engines are written as programs over the
request only: take a reference, put one, use the request, call the end function, call another function, start another
thread (a completion of a device, a wake-up of a lock, an entry of a queue), set or run the handler, count the parts.
All branches are free choices, so the model has more runs than the code. The proof gives each function the references and
the right to end the request that it takes over and leaves (`Sig`), checks each body once (`body_chk`), and shows that the sum
over all threads is the reference count (`Inv`). Proved: no use after the free, one end, nothing left over. A thread that uses
the request after handing it over is found this way: `ocf_d2c_flush_fast` and `ocf_d2c_discard_fast` take statistics after the
completion may have freed the request (`d2c_flush_used_freed`, `d2c_discard_used_freed`); a later step of a discard uses the
request in `ocf_hb_req_prot_unlock_rd` after it may have gone on and ended elsewhere (`discard_used_freed`); a discard
without memory for its map keeps its reference for ever (`discard_no_memory_leaks`). Not modelled: prefetch,
`engine_zero.c`, `engine_ops.c`'s zero-fill, requests of the cleaner and of management, fairness.

**What requests hold (`ReqAlloc`, C53).** All functions of `ocf_request.c` that make and free requests, with `ocf_io_new` and
`ocf_io_put`, over the counters they take: `refcnt.metadata`, `refcnt.d2c`, references of queues and volumes, objects per order
of the pool (`Mpool`), blocks of `env_zalloc`. Every allocation may fail. `ocf_req_new` is split at its two tries of counters, so
that attach and detach run in between; the other functions are one step. Callers follow the rules (only live requests are used,
the submitter puts by `ocf_io_put`). The proof is an account: each counter is the sum over live requests, calls under way and what
a function has in hand (`Bal`). Defects proved: `ocf_req_new` keeps `refcnt.d2c` when `ocf_req_new_d2c` finds no memory
(`ocf_request.c:203-206`, `d2c_leak`), so no later attach finishes (`attach_never_finishes`); `ocf_req_new` that saw
`refcnt.metadata` frozen stops with `ENV_BUG` if an attach switches before it tries `refcnt.d2c` (`ocf_request.c:199-201`,
`ocf_mngt_cache.c:1997-1998`, `new_in_attach_bug`).

**Management lock and life of a cache (`MngtLock`, C54).** `ocf_mngt_cache_get`, `_put`, `_get_by_name`, `_lock`, `_trylock`,
`_unlock` (both kinds), the end of `ocf_mngt_cache_stop` and `ocf_mngt_cache_remove`, over `refcnt.cache`, `refcnt.lock` and the
lock of `AsyncLock`. Any number of tasks; each access to a counter, to the lock or to the state bit is one step, so stop runs
between any two of them. `env_refcnt_inc` and the registration of a callback are one step each (their own races are C10's). Callers
follow the rules: who calls lock, trylock or get by handle has a reference meanwhile, stop is called by a holder of the write
lock, unlock by a holder. Creation of the cache is not modelled (it starts unlocked with one reference), nor the pipeline of
stop before `ocf_mngt_cache_stop_finish`. The proof is an account (`Acc`) of both counters, the lock and the ids of calls. Defects
proved: a trylock refused after it got the lock keeps its reference (`ocf_mngt_common.c:283-287`), so the cache is never freed
(`trylock_leak`, `leak_forever`); the user that stopped a cache unlocks a destroyed lock (`unlock_after_destroy`).

**Cores (`CoreMngt`, C55).** `ocf_mngt_cache_add_core` with and without `try_add`, `_ocf_mngt_cache_add_core_handle_error`,
`_ocf_mngt_find_first_free_core`, `ocf_mngt_core_init_front_volume`, `ocf_mngt_cache_remove_core`,
`ocf_mngt_cache_detach_core`, the helpers of `ocf_mngt_common.c`, `_ocf_mngt_cache_stop_remove_cores`,
`_ocf_mngt_load_add_cores` and `_ocf_mngt_deinit_added_cores`, and the parts of `ocf_volume_init/deinit/open/close`
they rely on. Every call that can fail has its result as an input. A place for a core has its flags and what it
holds (private memory of two volumes, counters, seq-cutoff, cleaning policy); the superblock on the device is the
list of names and uuids. Ghost fields record a lost allocation, a followed NULL pointer, a use of freed memory, and the
four situations in which the code goes wrong (`fe`, `li`, `busy`, `stale`); the theorems say that nothing goes
wrong without them, and each has a run in which it does. Not modelled: names and uuids as strings (equality only), the
lookup of types and uuids of moved cores in the pool, flushing before a detach or a removal (C32), the write of
single sections (C15, C16), failing attaches and detaches of the cache device, standby.

**Changing the cleaning policy (`PolicySwitch`, C56).** `ocf_mngt_cache_cleaning_set_policy` and its pipeline, the wrappers of
`cleaning_ops.h` that count calls in `cleaner.refcnt`, the cleaner's run and completion, and the places of attach, load, detach
and stop that initialise and free the policy. A thread is a request (holding the metadata lock for reading, with any number of
calls), a run of the cleaner (holding the management lock until its completion) or an operation on a core; `env_refcnt_inc` is
split at its accesses (freeze, value, freeze again). The context is which policy allocated it. Ghost fields record a lost
context, a dropped call and a crash (a NULL or foreign context used, an assertion). Three flags say what the surroundings may
do: populate may fail, a load may fail late, changes may be asked for without a cache device. The proof shows that a frozen
counter is never met by a call: requests are kept out by the exclusive metadata lock, the cleaner and core operations by the
management lock. Not modelled: what the policies do (C28, C29), ALRU's exclusive metadata lock during a run, the tables per core
(C29, C55), parameters, standby, a policy number out of range. Trusted: `env_refcnt` waits as its source says, detach stops the cleaner's thread. Defects
proved: no check for a cache device (`ocf_mngt_flush.c:1053-1096`, `detached_crashes`); a failed populate leaves the context
under NOP (`ocf_mngt_flush.c:985-1010`, `populate_failure_leaves`); a load that fails later never frees the policy
(`load_failure_leaves`).

**The context of the library (`Ctx`, C57).** `ocf_ctx_create` with every call in it failing or not, `ocf_ctx_get/put`,
registering, unregistering and looking up volume types, creating volumes, and the pool of core volumes. Each call is one step,
since the types and the pool are changed under `ctx->lock`. Type objects are numbers never used twice, so a freed one can be
told from a new one; volumes outside the pool (of the user, or taken by a core on load) are a list. What is held is counted
over all contexts there ever were, so what a failed creation leaves behind stays visible. Proved: creation succeeds exactly if
all its calls do; the last put gives everything back; ids and types correspond; the pool's count, lookup and visitor. Defects
found, each with a theorem: a failed creation never destroys the mutex (`ocf_ctx.c:235-246`); `err_utils` is also taken after
the core type was registered and does not unregister it, and `err_core_volume` does not unregister the cache type; the public
`ocf_ctx_unregister_volume_type` checks `OCF_VOLUME_TYPE_MAX` where the registering call checks `OCF_VOLUME_TYPE_MAX_USER`, so
a user can remove the library's own types and cannot put them back; a type can be unregistered under living volumes;
`ocf_ctx_get_volume_type_id(ctx, NULL)` gives the first free id. Not modelled: two contexts at a time, the logger's contents,
memory of the pools inside, two threads inside one call.

**The life of volumes (`Volume`, C58).** `ocf_volume_init/deinit/move/set_uuid/open/close`, `ocf_io_new/put`, the two places
where the library moves a volume (attaching a cache device, loading a core from the pool) with what follows there, and
`ocf_composite_volume_open/close/add/member_visit`. Allocations are numbers never used twice, so freeing twice or freeing
foreign memory is visible. Closing is two steps, so I/O can be put between. The reference counter is atomic here (its single
steps are C10). The type is assumed to have `on_init` and `on_deinit`. Proved: an exact account of memory over all histories,
when initialising, opening and I/O succeed, that closing waits and ends, what attach and load move, composite volumes open all
or none with the right length, ends and largest I/O. Defects found, each with a theorem: `ocf_volume_set_uuid` stores the
caller's pointer and keeps `uuid_copy`, so a core that came from the pool and is renamed frees the caller's memory on
deinitialisation (and any renamed core points to memory of the caller); `ocf_volume_move` leaves the target's frozen counter,
so a volume moved while open takes no I/O; the private part of a core's volume on which `on_init` ran is freed without
`on_deinit` on a load from the pool; a volume without uuid gets `on_deinit` but no `on_init`; an attach given an open volume
fails and deinitialises it without closing it; taking a pool volume with I/O on it trips an assertion. Not modelled: lengths
that overflow, types' own behaviour, two threads calling management functions on one volume.

**The library's own submissions (`Submit`, C59).** `ocf_submit_cache_flush`, `_discard`, `_write_zeros`, `_page` and their
completions, with `ocf_req_forward_cache_init/get/put` and `ocf_forward_end`. One submission is a state machine: the call with
its allocations, the loop over parts one at a time, and completions of parts at any moment after they were forwarded. The proof
is an invariant by program point: the reference count is the parts under way plus one while in the loop; the parts so far tile
the range up to the address reached. Termination is a number that every step lowers. Not modelled: the queue the completion runs
on, the data descriptor of the page below its contents as one number, overflow of address plus length. Found here:
`ocf_submit_cache_write_zeros` never calls `ocf_req_forward_cache_init`, so zeroing (attach of an atomic volume whose discard
does not zero) ends in a call of NULL with the context lost (`zeros_never`); a failed page read overwrites the caller's buffer.

**The promotion policy of a cache (`Promo`, C60).** `ocf_promotion_init/deinit/set_policy/set_param/get_param`, `nhit_init`,
`nhit_deinit`, `nhit_set_param/get_param/setup`, `nhit_hash_init/deinit` with every label of the error path, and where attach,
load, activate, detach and stop call them. Calls are atomic: the metadata lock is held exclusively by the setters and shared by
requests. The invariant says that the policy exists exactly while the cache is attached and active, fits the type in the
metadata, and that what is held is what the policy has plus the ring buffers lost. The table's contents are in `Nhit` (C26).
Not modelled: the rest of attach, load and activate, NULL result pointers. Found here: set_policy on a cache
without a device uses a NULL pointer, since the error is assigned and then overwritten; parameters of a type out of range fail
an assertion; a spinlock failure loses the ring buffer; every attach resets the parameters but not the type.

**The life of queues (`QueueLife`, C61).** `ocf_queue_create`, `ocf_queue_create_mngt`, `ocf_queue_get/put/visit`, the reference
counter of the cache with its callback at zero, and of stopping the cache what concerns queues (`_ocf_mngt_cache_put_io_queues`,
`ocf_mngt_cache_remove`, the last put). Queues are identified by address; the allocator may give the address of a freed queue
again. Not modelled: requests in queues (C25), the sequential cutoff structure itself (C27 has its logic), concurrency of two
calls (each is atomic: counters are atomic, the list is under its lock), `queue->cache` read before the NULL check in
`ocf_queue_put`. Defects proved: `create_loses` (spinlock not destroyed when `ocf_queue_seq_cutoff_init` fails), `stale_mngt`
(`cache->mngt_queue` is never cleared), `held_over_stop` (`io_queues_lock` is destroyed while a queue can still be unlinked).
Two rules under which list and locks are proved right: the management queue is kept until the cache is stopped; no reference to an
I/O queue but that of its creator is held when the cache is stopped.

**The reallocator (`Realloc`, C62).** All of `utils_realloc.c`, statement by statement: which allocator, copy, which free, zeroing,
limit. Bytes are natural numbers; other users of memory may change any other block between calls. `env_memcpy` and `env_memset`
are taken as in the environment headers (they fail when the target is too small). Defect proved: `overflow_lies`, `size * count`
may wrap.

**Starting a cache (`CacheStart`, C63).** `_ocf_mngt_init_new_cache` with each label of its error path, `ocf_mngt_cache_lock_init/deinit`,
trylock and unlock as they are used there, `_ocf_mngt_init_prepare_cache`, `_ocf_mngt_init_handle_error`, `_ocf_mngt_cache_start`.
Not modelled: validation of the configuration, the values `_ocf_mngt_cache_init` writes, the inside of `ocf_metadata_init` (whole or
nothing), the queue of the lock (C08, C54). Defects proved: `undo_counter_too_many` (`for (; i >= 0; i--)` starts at the counter that
failed, or at one past the last), `undo_lock_late` (`ocf_mngt_cache_lock_deinit` takes a reference of `refcnt.cache` after
`env_refcnt_deinit` of it).

**Making invalid sectors persistent in an atomic cache (`RawAtomic`, C64).** All of `metadata_raw_atomic.c`, the marks of
`ocf_purge_map_info`, `ocf_req_forward_cache_get/put`, `ocf_forward_end` for the cache. A call is a plan (end at once, or a list of
commands with or without a reference of its own) and a machine that runs it: commands are sent one by one, the device ends any command it
has at any time with any error. 32-bit arithmetic of the length of a command and of the comparison of following lines is kept; 64-bit
addresses are numbers without bound, since 32 bits of line and 64 KiB of line size cannot overflow them unless the offset is near 2^64.
`env_sort` is a sort. Not modelled: what marks do to valid and dirty bits (`Bits`), the debug messages. The theorems about
commands assume that all lines of the request together are below 4 GiB and that marks form a contiguous range; `purge_shape` proves the
second of a purge. An example shows that a first line marked only at its beginning would be erased whole, so the second is needed.

**Visiting the caches of a context (`CacheVisit`, C65).** `_ocf_mngt_cache_get_list_cpy` with the lock of the context held over it,
`ocf_mngt_cache_visit` and `ocf_mngt_cache_visit_reverse`, `ocf_mngt_cache_put` with the deallocation at the last put of a frozen counter.
One visit is modelled; others may add caches, take and put references, freeze and take caches off the list between any two of its steps,
the list only while the lock is free. Assumed of others: a reference is put by who holds it, who stops a cache holds it until it is off the
list, addresses of caches are not used again. A failed allocation returns `-ENOMEM` (here -12), not `-OCF_ERR_NO_MEM` as elsewhere. Not
modelled: checks of null pointers, the visitor itself, several visits at once (another visit is among the others).

**Parameters of cleaning (`CleanParam`, C66).** `ocf_mngt_cache_cleaning_set_param` and `_get_param` down to the setters and getters of
ALRU and ACP with their defaults, and the decisions ALRU takes by them: `compute_timestamp`, `check_for_io_activity`, `clean_later`,
`check_for_dirty_ratio`, `is_cleanup_possible`, the bound of `more_blocks_to_flush`, the interval of `alru_clean_complete`. A tick is a
microsecond, as in the posix environment, and `unsigned long` has 64 bits. `ocf_cache_get_info` is taken to succeed. Found: `early_clock`,
the stale time is taken from a clock that may have counted less, and the difference wraps, so that a line just written is taken as old.
Not modelled: the locks, logging, checks of null pointers, negative numbers of policies, and parameters loaded from a superblock on the device (the start is a cache set
up anew).

## Suspected defects seen while reading, not proved

* `ocf_mngt_cache_set_mode` on a detached cache overwrites the error (`ocf_mngt_cache.c:3617-3626`).
* `ocf_mngt_cache_purge` does not check for a detached or incomplete cache.
* `ocf_mngt_core_clear_uuid_metadata` passes NULL data, so the UUID is never cleared.
* Recovery accepts core lines beyond the end of the core; the superblock's core count is not compared with the bitmap.
* `raw_dynamic_flush_all` leaks its context on an error; `raw->disabled` of the cleaning segment is not reset on re-attach.
* `ocf_core_validate_io`: `addr + bytes` wraps at 2^64.
* `ocf_engine_prepare_clines`: when the remap succeeds and the lock fails, remapped lines stay locked.
* `_ocf_mngt_flush_container` returns a positive `OCF_ERR_NO_MEM`.
* A failed cache write in write-back purges dirty lines.
- `_ocf_mngt_attach_update_cores_atomic` (`/repo/src/mngt/ocf_mngt_cache.c:1773-1794`) never calls `ocf_pipeline_next` on
  a volume with atomic metadata, so an attach of such a device never completes.
- `ocf_mngt_core_clear_uuid_metadata` copies a uuid with no data, which `ocf_mngt_core_set_uuid_metadata` leaves
  alone: the uuid of a removed core stays in the metadata.
- `OCF_CMPL_RET(cache, ...)` at `/repo/src/mngt/ocf_mngt_core.c:763`, `766`, `885`, `888` passes the cache where the completion of a
  removal or detach expects its private pointer.
