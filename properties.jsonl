{"id": "C01", "title": "Reads return the last written data in every cache mode", "statement": "After any history of completed writes, reads and discards submitted to a core volume, in any mix of cache modes (WT, WB, WA, WI, WO, PT) and with any interleaved evictions, background cleaning and cache-mode switches, a read of any sector returns exactly the data of the most recent acknowledged write to that sector.", "quantifier": "for all histories of requests of any length, all request ranges (any alignment), all per-request mode choices, all eviction and cleaning choices, all initial core contents", "why_tests_cant": "The number of interleavings of modes, partial-sector validity, evictions and cleanings is unbounded; a test only samples a few histories.", "anchors": ["src/engine/engine_wt.c:ocf_write_wt", "src/engine/engine_wb.c:ocf_write_wb", "src/engine/engine_rd.c:ocf_read_generic", "src/engine/engine_wo.c:ocf_read_wo", "src/engine/engine_wa.c:ocf_write_wa", "src/engine/engine_wi.c:ocf_write_wi", "src/engine/engine_pt.c:ocf_read_pt", "src/utils/utils_cleaner.c"]}
{"id": "C02", "title": "Acknowledged writes survive a crash", "statement": "If power is lost at any point (between or inside requests, cleanings and evictions) and the cache is then recovered from the metadata stored on the cache device, every write that was acknowledged before the crash is still returned by reads, and each sector of a write that was not yet acknowledged reads either as its old or its new value.", "quantifier": "for all histories, all crash points between elementary device operations, all modes", "why_tests_cant": "Crash points multiply with histories; each intermediate durable state would need its own test.", "anchors": ["src/engine/engine_wb.c:ocf_write_wb_do_flush_metadata", "src/engine/engine_wb.c:ocf_write_wb_submit", "src/mngt/ocf_mngt_cache.c:ocf_mngt_rebuild_metadata_handle", "src/utils/utils_cleaner.c:_ocf_cleaner_update_metadata", "src/metadata/metadata_bit.h"]}
{"id": "C03", "title": "Sector status bits: dirty implies valid, and updates touch exactly the requested sectors", "statement": "Marking a sector range of a cached line valid, invalid, dirty or clean changes the status of exactly the sectors of that range, reports the right any/all summary, and never produces a sector that is reported dirty but not valid.", "quantifier": "for all line sizes (8 to 128 sectors), all sub-ranges, all starting statuses reachable by any sequence of updates", "why_tests_cant": "2^128 statuses times all sub-ranges cannot be enumerated by tests.", "anchors": ["src/metadata/metadata_bit.h", "src/metadata/metadata_status.h", "src/utils/utils_cache_line.h"]}
{"id": "C04", "title": "Mapping lookup is exact", "statement": "At any time, looking up a core line finds a cache line if and only if that core line is currently cached, and then finds the one cache line holding it; two core lines never share one cache line and one core line is never held by two cache lines.", "quantifier": "for all sequences of insertions and removals, all table sizes, all core ids and core line numbers (including hash collisions)", "why_tests_cant": "Bugs show only for particular collision chains and removal orders (head, middle, tail, last).", "anchors": ["src/metadata/metadata_collision.c:ocf_metadata_add_to_collision", "src/metadata/metadata_collision.c:ocf_metadata_remove_from_collision", "src/engine/engine_common.c:ocf_engine_lookup_map_entry", "src/metadata/metadata_misc.h:ocf_metadata_hash_func"]}
{"id": "C05", "title": "Recency list is exact and never corrupts", "statement": "The recency (LRU) list of an I/O class behaves as an ordered sequence: adding puts a line first, removing deletes exactly that line and keeps the order of the others, touching moves to front; the first half of the list (rounded down) is exactly the 'hot' part, and none of the internal consistency assertions can fail.", "quantifier": "for all sequences of add / remove / touch operations on lists of any length, starting from empty", "why_tests_cant": "Pointer corruption depends on the position (head, tail, last-hot, single element) and on the parity of the list length.", "anchors": ["src/ocf_lru.c:add_lru_head", "src/ocf_lru.c:remove_lru_list", "src/ocf_lru.c:balance_lru_list", "src/ocf_lru.c:ocf_lru_set_hot"]}
{"id": "C06", "title": "Exclusive line access", "statement": "While a request holds write access to a cache line, no other request holds read or write access to it; readers may share. This holds whatever order requests lock, wait, get woken up and unlock.", "quantifier": "for all schedules of any number of requests over any number of lines", "why_tests_cant": "Races depend on schedules; the number of interleavings is unbounded.", "anchors": ["src/utils/utils_alock.c:ocf_alock_trylock_entry_wr", "src/utils/utils_alock.c:ocf_alock_unlock_one_wr_common", "src/utils/utils_alock.c:ocf_alock_unlock_one_rd_common", "src/concurrency/ocf_cache_line_concurrency.c"]}
{"id": "C07", "title": "No request waits forever on a line lock", "statement": "Whenever no request holds a line, nobody is waiting for that line (no lost wake-up); waiters of a line are granted access in arrival order, and a request is resumed exactly once, exactly when the last line it waits for is granted.", "quantifier": "for all schedules of any number of requests over any number of lines", "why_tests_cant": "A lost wake-up needs a specific interleaving of unlock and enqueue.", "anchors": ["src/utils/utils_alock.c:ocf_alock_lock_one_wr", "src/utils/utils_alock.c:ocf_alock_unlock_one_rd_common", "src/utils/utils_alock.c:ocf_alock_entry_locked", "src/utils/utils_alock.c:ocf_alock_lock_rd"]}
{"id": "C08", "title": "Management lock is a fair reader/writer lock", "statement": "The management lock is never held by a writer together with anybody else; every lock request is completed exactly once, in arrival order among waiters, and whenever the lock is free nobody is left waiting.", "quantifier": "for all sequences of lock, try-lock, unlock (read and write) and deinit calls by any number of callers", "why_tests_cant": "Interleavings of asynchronous waiters are unbounded.", "anchors": ["src/utils/utils_async_lock.c", "src/mngt/ocf_mngt_common.c:_ocf_mngt_cache_lock"]}
{"id": "C09", "title": "Metadata locks are taken in one global order", "statement": "For every request the metadata bucket locks are taken for exactly the set of buckets its core lines hash to, each once and in ascending order, so two requests can never deadlock on them; the test whether a bucket belongs to a request answers exactly membership in that set.", "quantifier": "for all request lengths, all start positions, all table sizes (including requests longer than the table)", "why_tests_cant": "Wrap-around and overlap corner cases depend on start, length and table size.", "anchors": ["src/concurrency/ocf_metadata_concurrency.c:for_each_req_hash_asc", "src/concurrency/ocf_metadata_concurrency.c:ocf_req_hash_in_range", "src/metadata/metadata_misc.h:ocf_metadata_hash_func"]}
{"id": "C10", "title": "Quiescing waits for all users", "statement": "After an object is frozen no new user can get in; the registered callback runs at most once and only when no user that got in before is still in; if all users leave, it does run.", "quantifier": "for all interleavings of the individual atomic steps of any number of threads entering and leaving and one thread freezing and registering", "why_tests_cant": "The failing schedule needs three threads interleaved between single atomic instructions.", "anchors": ["env/posix/ocf_env_refcnt.c", "env/posix/ocf_env_refcnt.h", "src/mngt/ocf_mngt_common.c:ocf_mngt_continue_pipeline_on_zero_refcnt"]}
{"id": "C11", "title": "Eviction respects I/O class minimum sizes", "statement": "Making room for a request never pushes an I/O class below its configured minimum occupancy.", "quantifier": "for all class configurations, occupancies, request sizes and eviction amounts", "why_tests_cant": "Configurations and occupancies are unbounded.", "anchors": ["src/ocf_space.c:ocf_evict_calculate", "src/utils/utils_user_part.h:ocf_user_part_get_min_size"]}
{"id": "C12", "title": "Eviction follows class priority and never touches pinned classes", "statement": "Space is taken first from free lines, then from classes over their maximum, then by class priority from the lowest priority up; lines of a pinned class and of classes with higher priority than the requester are not evicted; a request gets either all the lines it needs or it is not cached.", "quantifier": "for all class configurations and occupancies", "why_tests_cant": "Combinatorics of class orders, occupancies and sizes.", "anchors": ["src/ocf_space.c:ocf_evict_user_partitions", "src/ocf_space.c:ocf_remap_do", "src/ocf_space.c:ocf_space_managment_remap_do", "src/utils/utils_user_part.c:ocf_user_part_lst_cmp_valid"]}
{"id": "C13", "title": "Only clean, unused lines are evicted", "statement": "A line chosen to make room for new data holds no dirty data, is not in use by any other request and is not one of the lines the same request needs.", "quantifier": "for all cache states and request ranges", "why_tests_cant": "Depends on the concurrent state of locks and lists.", "anchors": ["src/ocf_lru.c:lru_iter_eviction_next", "src/ocf_lru.c:ocf_lru_req_clines"]}
{"id": "C14", "title": "Superblock update is atomic under crash", "statement": "If power is lost at any point of a configuration save, the next load sees either the complete old or the complete new configuration, or fails with an error; it never silently loads a mixture.", "quantifier": "for all sequences of configuration saves (each of which may fail with an I/O error at any step), all crash points, torn superblock writes included, up to checksum collision", "why_tests_cant": "Each crash point after each earlier history of I/O errors would need its own test.", "anchors": ["src/metadata/metadata_superblock.c:ocf_metadata_flush_sb_*", "src/metadata/metadata_superblock.c:ocf_metadata_load_sb_*"]}
{"id": "C15", "title": "Metadata pages to be written are exactly the touched ones", "statement": "When a request updates the metadata of some cache lines, the pages written to the cache device are exactly the pages containing the entries of those lines, each page once, and merged writes never exceed contiguous runs.", "quantifier": "for all sets and orders of lines, all entry sizes", "why_tests_cant": "Runs, duplicates and gaps combine without bound.", "anchors": ["src/metadata/metadata_raw.c:_raw_ram_flush_do_asynch", "src/metadata/metadata_raw.c:_raw_ram_flush_mark"]}
{"id": "C16", "title": "Metadata I/O covers the requested page range exactly once", "statement": "A multi-page metadata read or write is split over parallel sub-requests so that each page is transferred exactly once, whatever order sub-requests complete, and completion is reported exactly once after all of them finished.", "quantifier": "for all page counts, chunk sizes, numbers of parallel sub-requests and completion schedules", "why_tests_cant": "Schedules of up to 128 parallel workers are not enumerable.", "anchors": ["src/metadata/metadata_io.c:metadata_io_i_asynch", "src/metadata/metadata_io.c:metadata_io_req_advance", "src/metadata/metadata_io.c:metadata_io_end"]}
{"id": "C17", "title": "On-device layout does not overlap", "statement": "The metadata regions on the cache device are pairwise disjoint, lie before the data area, and every cache line's data fits on the device; the address-to-line mapping is injective.", "quantifier": "for all device sizes, line sizes and numbers of cache lines for which attach succeeds", "why_tests_cant": "The size calculation is an iterative fixpoint over 64-bit sizes.", "anchors": ["src/metadata/metadata.c:ocf_metadata_calculate_metadata_size", "src/metadata/metadata.c:ocf_metadata_init_variable_size"]}
{"id": "C18", "title": "Data is only marked clean after it reached the backend", "statement": "Background cleaning marks a sector clean only if its current contents were written to the core volume and the core volume was flushed successfully; on any I/O error the sector stays dirty.", "quantifier": "for all sets of lines, all error patterns, all interleavings with lines changing state before they are locked", "why_tests_cant": "Error patterns per line per step are exponential.", "anchors": ["src/utils/utils_cleaner.c:_ocf_cleaner_check_map", "src/utils/utils_cleaner.c:_ocf_cleaner_core_io_for_dirty_range", "src/utils/utils_cleaner.c:_ocf_cleaner_update_metadata"]}
{"id": "C19", "title": "Cleaning covers every requested line", "statement": "Every line handed to a cleaning run is covered by exactly one sub-request and exactly the dirty sector ranges of a line are written back, each sector once.", "quantifier": "for all batches of lines, all orders, all dirty bitmaps", "why_tests_cant": "Dirty bitmaps alone are 2^128 per line.", "anchors": ["src/utils/utils_cleaner.c:_ocf_cleaner_core_submit_io", "src/utils/utils_cleaner.c:ocf_cleaner_fire", "src/utils/utils_cleaner.c:ocf_cleaner_populate_req"]}
{"id": "C20", "title": "A composite volume behaves like the concatenation of its members", "statement": "An I/O to a composite volume is forwarded as a set of member I/Os that together cover exactly the requested byte range, each byte once, at the right member offset and the right buffer offset; the completion is reported once, after all member I/Os.", "quantifier": "for all member counts and sizes, all in-range addresses and lengths", "why_tests_cant": "Boundary-crossing combinations are unbounded.", "anchors": ["src/ocf_composite_volume.c:ocf_composite_forward_io", "src/ocf_composite_volume.c:ocf_composite_forward_discard", "src/ocf_composite_volume.c:ocf_composite_volume_open"]}
{"id": "C21", "title": "Initial fill order is a permutation", "statement": "The pseudo-random order in which free lines are laid out visits every line exactly once.", "quantifier": "for all cache sizes (2 to 2^31 lines) and all start offsets", "why_tests_cant": "Sizes are unbounded; off-by-one shows only at non powers of two.", "anchors": ["src/utils/utils_generator.c", "src/ocf_lru.c:ocf_lru_populate_handle"]}
{"id": "C22", "title": "Parallel jobs cover all work once and report once", "statement": "A management job split in shards processes every item in exactly one shard, and its completion callback runs exactly once, after the last shard, with an error if any shard failed.", "quantifier": "for all item counts, shard counts, and completion schedules", "why_tests_cant": "Schedules are unbounded.", "anchors": ["src/utils/utils_parallelize.c", "src/metadata/metadata_collision.c", "src/metadata/metadata.c:ocf_metadata_init_collision_handle"]}
{"id": "C23", "title": "Pipelines run their steps in order and finish once", "statement": "A multi-step management operation runs its steps in the declared order, calls its finish callback exactly once, and after an error runs no further step and reports that error.", "quantifier": "for all pipelines (any number and kind of steps) and all per-step outcomes", "why_tests_cant": "Pipelines and outcomes are unbounded.", "anchors": ["src/utils/utils_pipeline.c"]}
{"id": "C24", "title": "I/O completion is reported once, after all parts, with the first error", "statement": "A request forwarded as any number of device I/Os completes exactly once, not before the last part finished, and reports an error if and only if some part failed, namely the first one reported.", "quantifier": "for all numbers of parts and all completion orders and results, including parts completing while others are still being submitted", "why_tests_cant": "Completion schedules are unbounded.", "anchors": ["src/ocf_request.c:ocf_req_forward_cache_io", "src/ocf_request.h:ocf_req_forward_cache_get", "src/ocf_request.c:ocf_forward_end"]}
{"id": "C25", "title": "Requests queued are run once, in order", "statement": "Each request pushed to an I/O queue is executed exactly once; requests of one priority run in the order pushed, and high priority requests run before low priority ones waiting at the same time.", "quantifier": "for all interleavings of push and run calls", "why_tests_cant": "Interleavings are unbounded.", "anchors": ["src/ocf_queue.c:ocf_queue_push_req", "src/ocf_queue.c:ocf_queue_pop_req"]}
{"id": "C26", "title": "Promotion filter counts accesses exactly", "statement": "With the n-hit promotion policy a core line is admitted only after the configured number of requests touched it while it stayed tracked, and the tracking structure never loses or duplicates a tracked line.", "quantifier": "for all access sequences, table sizes and thresholds, including hash collisions and wrap-around of the tracking ring", "why_tests_cant": "Ring wrap-around combined with collisions has unbounded histories.", "anchors": ["src/promotion/nhit/nhit_hash.c", "src/promotion/nhit/nhit.c"]}
{"id": "C27", "title": "Sequential cutoff fires exactly on long streams", "statement": "A request bypasses the cache because of sequential cutoff exactly when it continues a tracked stream of the same direction and the stream length including the request reaches the threshold (and the policy condition holds).", "quantifier": "for all access sequences", "why_tests_cant": "Access sequences are unbounded.", "anchors": ["src/ocf_seq_cutoff.c"]}
{"id": "C28", "title": "Cleaning order lists are exact", "statement": "The ALRU cleaning list contains exactly the dirty lines of its I/O class, each once, in order of last write; removing or touching a line keeps the others in order, and internal assertions never fail.", "quantifier": "for all sequences of write-touch and purge operations", "why_tests_cant": "Pointer corruption depends on positions and lengths.", "anchors": ["src/cleaning/alru.c:add_alru_head", "src/cleaning/alru.c:remove_alru_list", "src/cleaning/alru.c:cleaning_policy_alru_set_hot_cache_line"]}
{"id": "C29", "title": "ACP bucket placement matches the dirty count", "statement": "With the ACP cleaning policy every chunk with at least one dirty line is in a bucket from which chunks are selected for cleaning, and the bucket matches the chunk's share of dirty lines.", "quantifier": "for all sequences of lines becoming dirty and clean, from any starting population", "why_tests_cant": "Sequences are unbounded and thresholds differ per line size.", "anchors": ["src/cleaning/acp.c:_acp_update_bucket", "src/cleaning/acp.c:cleaning_policy_acp_populate", "src/cleaning/acp.c:_acp_can_clean_chunk"]}
{"id": "C30", "title": "Bookkeeping of line ownership is exact", "statement": "Every cache line belongs to exactly one I/O class or to the free pool; the reported occupancy of each class and the number of free lines equal the actual numbers of such lines, and their sum never changes.", "quantifier": "for all sequences of insertions, evictions, invalidations and re-classifications", "why_tests_cant": "Histories are unbounded.", "anchors": ["src/ocf_lru.c:ocf_lru_repart", "src/metadata/metadata_partition.c", "src/utils/utils_cache_line.c"]}
{"id": "C31", "title": "Reported cached and dirty line counts are exact", "statement": "The cached and dirty line counters of each core equal the number of its lines with at least one valid, respectively dirty, sector.", "quantifier": "for all sequences of status updates", "why_tests_cant": "Histories are unbounded.", "anchors": ["src/utils/utils_cache_line.c:set_cache_line_valid", "src/utils/utils_cache_line.c:__set_cache_line_invalid", "src/utils/utils_cache_line.c:set_cache_line_dirty", "src/utils/utils_cache_line.c:set_cache_line_clean"]}
{"id": "C32", "title": "Flush leaves nothing dirty", "statement": "If a core or cache flush operation completes without error, no sector written before the flush started is dirty any more and the core volume holds its data.", "quantifier": "for all cache contents, portion sizes and error patterns", "why_tests_cant": "Cache contents and portioning are unbounded.", "anchors": ["src/mngt/ocf_mngt_flush.c:_ocf_mngt_get_sectors", "src/mngt/ocf_mngt_flush.c:_ocf_mngt_flush_portion", "src/mngt/ocf_mngt_flush.c:_ocf_mngt_get_flush_containers"]}
{"id": "C33", "title": "Cache mode resolution", "statement": "The cache mode used for a request is pass-through whenever the cache is in a degraded state or the request cannot fit, write-back family modes are only used when dirty data is currently allowed, and otherwise it is the mode configured for the request's I/O class or else the cache.", "quantifier": "for all combinations of configuration, request and cache state", "why_tests_cant": "The product of conditions is large and a wrong precedence is invisible in most of them.", "anchors": ["src/engine/engine_common.c", "src/engine/cache_engine.c:ocf_resolve_effective_cache_mode"]}
{"id": "C34", "title": "Request geometry is exact", "statement": "A request is split over cache lines so that the per-line sector ranges together cover exactly the requested bytes, each sector once, in ascending order; and a request served from cache lines transfers every byte between the right buffer offset and the right cache address exactly once.", "quantifier": "for all addresses, lengths and line sizes, and all placements of lines in the cache (contiguous or scattered)", "why_tests_cant": "Alignment and contiguity patterns are unbounded.", "anchors": ["src/engine/engine_io.c:ocf_engine_forward_cache_io_req", "src/utils/utils_cache_line.h", "src/ocf_request.c:ocf_req_new"]}
{"id": "C35", "title": "Recovery partitions all lines correctly", "statement": "Dirty-shutdown recovery keeps exactly the lines that hold dirty data (with exactly their dirty sectors), returns all others to the free pool, and refuses inconsistent metadata.", "quantifier": "for all on-disk metadata contents (also corrupted), all cache sizes", "why_tests_cant": "On-disk contents are arbitrary bytes.", "anchors": ["src/mngt/ocf_mngt_cache.c:ocf_mngt_rebuild_metadata_handle", "src/metadata/metadata_bit.h:metadata_clear_valid_if_clean", "src/metadata/metadata.c:ocf_metadata_check"]}
{"id": "C36", "title": "Superblock validation rejects foreign or corrupted metadata", "statement": "Loading succeeds only if magic number, version, checksum, and all configuration fields are in range; the error tells magic mismatch, version mismatch and corruption apart.", "quantifier": "for all superblock contents", "why_tests_cant": "Contents are arbitrary bytes.", "anchors": ["src/metadata/metadata_superblock.c:ocf_metadata_validate_superblock"]}
{"id": "C37", "title": "Index list container is exact", "statement": "The index-based list container used for I/O classes behaves as a sequence under add, add before/after, remove and sort; sort yields a sorted permutation and is stable.", "quantifier": "for all sequences of operations and all comparison functions", "why_tests_cant": "Histories are unbounded.", "anchors": ["src/utils/utils_list.h", "src/utils/utils_list.c:ocf_lst_sort"]}
{"id": "C38", "title": "I/O class configuration is all-or-nothing", "statement": "If setting an I/O class configuration fails, the previous configuration of all classes stays in force.", "quantifier": "for all previous and new configurations", "why_tests_cant": "Configurations are unbounded.", "anchors": ["src/mngt/ocf_mngt_io_class.c:ocf_mngt_cache_io_classes_configure"]}
{"id": "C39", "title": "Core id allocation", "statement": "A new core gets an id that is not in use; id 0 is only used if no other id is free; allocation fails only if all ids are used.", "quantifier": "for all sets of used ids", "why_tests_cant": "2^4096 sets of used ids.", "anchors": ["src/mngt/ocf_mngt_core.c:_ocf_mngt_find_first_free_core"]}
{"id": "C40", "title": "Discard and zeroing", "statement": "A completed discard drops every cached copy of the range, reports completion exactly once, and reports an error if any step failed.", "quantifier": "for all ranges, cache states and error patterns", "why_tests_cant": "Error patterns per step are exponential.", "anchors": ["src/engine/engine_discard.c", "src/engine/engine_zero.c"]}
{"id": "C41", "title": "Pool allocations are large enough", "statement": "Allocating a request with room for n items from the size-class pools always yields room for at least n items.", "quantifier": "for all n and all pool limits", "why_tests_cant": "All n.", "anchors": ["env/posix/utils_mpool.c", "src/ocf_request.c"]}
{"id": "C42", "title": "Statistics are consistent", "statement": "Reported hits, partial misses and full misses add up to the serviced total, and every percentage is between 0 and 100%.", "quantifier": "for all histories of counted requests", "why_tests_cant": "Histories are unbounded.", "anchors": ["src/ocf_stats.c", "src/ocf_stats_builder.c", "src/utils/utils_stats.h"]}
{"id": "C43", "title": "Ordered tree lookup", "statement": "The ordered tree used to find sequential streams finds an entry with a given key if and only if one was inserted and not removed.", "quantifier": "for all sequences of insertions and removals", "why_tests_cant": "Rebalancing cases depend on tree shapes of any size.", "anchors": ["src/utils/utils_rbtree.c", "src/ocf_seq_cutoff.c"]}
{"id": "C44", "title": "The search for a victim line is exhaustive and leaks nothing", "statement": "When making room fails, every list of the source class was examined and every line on it was unavailable for a stated reason (locked, one of the request's own lines, bucket busy, waited for); lists are tried round robin; and whether the search succeeds or not, the request ends up holding exactly its own buckets and exactly the lines assigned to it, each to a distinct missing slot.", "quantifier": "for all cache states, any number of concurrent searches, all interleavings with other lock holders", "why_tests_cant": "Tests exercise a few list fill patterns and never the interleavings in which candidates become unavailable while the bitmap of exhausted lists is rotated.", "anchors": ["src/ocf_lru.c:_lru_next_lru", "src/ocf_lru.c:_lru_iter_evition_lock", "src/ocf_lru.c:ocf_lru_req_clines", "src/ocf_def_priv.h:ocf_rotate_right"]}
{"id": "C45", "title": "Write-back ranges of a cleaned line", "statement": "Cleaning a line issues core writes that are non-empty, in order, separated by gaps, and contain each dirty sector exactly once; a line whose sectors are all valid is written back as one range covering each sector exactly once; no other sector is written.", "quantifier": "for all valid and dirty bitmaps with dirty contained in valid, all line sizes", "why_tests_cant": "2^128 bitmaps per line; the loop's boundary cases (run ending at the last sector, single-sector runs) are rarely hit together.", "anchors": ["src/utils/utils_cleaner.c:_ocf_cleaner_core_submit_io", "src/utils/utils_cleaner.c:_ocf_cleaner_sector_is_dirty"]}
{"id": "C46", "title": "A cleaning order completes exactly once, last", "statement": "The completion function of a cleaning order is called exactly once, after the firing loop ended and all sub-requests finished.", "quantifier": "for all numbers of sub-requests, all interleavings of firing, lock grants and request completions", "why_tests_cant": "The window between the lock call and the counter increment is a few instructions wide.", "anchors": ["src/utils/utils_cleaner.c:_ocf_cleaner_do_fire", "src/utils/utils_cleaner.c:_ocf_cleaner_complete_req", "src/utils/utils_cleaner.c:ocf_cleaner_fire"]}
{"id": "C47", "title": "Metadata locks exclude conflicting work and cannot deadlock", "statement": "Code under exclusive metadata access never runs together with any other code that uses the metadata locks; writers of a hash bucket, a collision page or an LRU list exclude each other and all readers of it; however the lock functions are interleaved, some thread can always go on, all threads finish, and then every lock is free, also when try-locks failed on the way.", "quantifier": "for all numbers of threads, all sequences of code paths (management, cleaning, metadata writes, requests with eviction), all request ranges, all table sizes, all interleavings and all outcomes of try-locks", "why_tests_cant": "Deadlocks and lost exclusion need particular interleavings of several threads and particular bucket overlaps.", "anchors": ["src/concurrency/ocf_metadata_concurrency.c", "src/ocf_lru.c:lru_iter_eviction_next", "src/engine/engine_common.c:ocf_engine_prepare_clines", "src/metadata/metadata_io.c:metadata_io_do"]}
{"id": "C48", "title": "Cleaning started by eviction: one run per class, locks and references balanced", "statement": "When requests that found nothing to evict start cleaning of an I/O class, at most one cleaning order of the class is under way; it is for 1 to 32 lines, each read-locked by the cleaning until the order completes; the completion gives back exactly those locks; when no caller is inside, no lock and no reference is left, so management waiting for the counter goes on; and once a run is over the next request can start another.", "quantifier": "for every number of callers, every interleaving of their steps with freezing, every outcome of the scan and of the sort, every earlier contents of the shared entries", "why_tests_cant": "The entries are shared by all runs of the class and hold stale lines; double unlocks need particular run lengths and particular interleavings of completion and next start.", "anchors": ["src/ocf_lru.c:573-652", "src/ocf_part.h:70-77", "src/engine/engine_common.c:532-535"]}
{"id": "C49", "title": "Overlapping flushes of metadata pages never take the device back", "statement": "With any number of flushes of metadata pages running at the same time as memory changes: a sector of the metadata on the device never becomes older; when a flush ends with success, each of its pages is on the device at least as new as it was in memory when the flush was begun, and stays so; writes under way at the same time are for different pages; while no flush failed, a page not being written is on the device as one copy of the memory; pages outside are not written; and no page stays locked.", "quantifier": "for every number of requests with any page ranges, every interleaving with changes of the memory, every order in which the device stores sectors and every pattern of errors", "why_tests_cant": "An older copy overwriting a newer one needs two flushes of one page overtaking each other inside the device; it shows only after a power failure at that moment.", "anchors": ["src/metadata/metadata_io.c:202-298", "src/concurrency/ocf_mio_concurrency.c:20-139", "src/metadata/metadata_raw.c:473-504"]}
{"id": "C50", "title": "Metadata containers: entries apart, flush then load restores", "statement": "Every entry of a metadata container lies within its memory and shares no byte with another entry. Flushing a container (or some pages of it) and loading the same copy gives back every entry flushed, leaves all other entries, pages and the other copy as they were, and the checksum taken before the flush is the one found after the load.", "quantifier": "all entry sizes up to a page, numbers of entries, copies, contents of memory and device, sets of pages flushed, memory failures", "why_tests_cant": "Tests use a few fixed geometries; the checksum failure needs a stop and load after a failed call.", "anchors": ["src/metadata/metadata_raw.c:38-423", "src/metadata/metadata_raw_dynamic.c:78-578", "src/metadata/metadata_segment.c:73-108"]}
{"id": "C51", "title": "A standby cache follows the writes it receives", "statement": "A write to the volume of a standby cache is forwarded to the cache device and copied to the superblock and collision table in memory: exactly the pages of these two containers it covers, each from the right place of its buffer. Two writes never copy to the same page at once; of two writes covering the same two pages one comes wholly before the other; a write submitted after another ended is not overwritten by it. Every request ends once, after device, update and submission, with an error if any of them had one; its locks are free then. The standby state is left only when nothing is under way, and nothing is copied afterwards.", "quantifier": "For all layouts of the two containers, all numbers of requests with any address, length and buffer, all interleavings of their steps and all device and allocation errors.", "why_tests_cant": "The order of lock grants, copies and device completions over many overlapping writes cannot be enumerated by tests.", "anchors": ["src/metadata/metadata_passive_update.c:28-140", "src/concurrency/ocf_pio_concurrency.c:30-245", "src/ocf_cache.c:296-350"]}
{"id": "C52", "title": "A request is ended once, freed once, and not used after that", "statement": "For every read, write, flush and discard submitted to a core volume, whatever the cache mode, hits, misses, lock waits, errors and order of completions: the end function of the I/O is called at most once, and exactly once when OCF has nothing left to do for it; no function of the engines touches the request after its last reference was put; when all is over no reference is left but that of the owner, so a cache can be stopped. Reads and writes: without exception; flushes and discards: not with the cache detached, discards not when memory is short or the continuation overtakes the submitting thread (defects proved).", "quantifier": "all interleavings of the threads of one request, all outcomes of every branch of the engines, any number of resubmissions", "why_tests_cant": "The order of completions against the return of the submitting function cannot be forced in tests; a use after free of a pooled object mostly goes unseen.", "anchors": ["src/ocf_core.c", "src/engine/cache_engine.c", "src/engine/engine_common.c", "src/engine/engine_rd.c", "src/engine/engine_wt.c", "src/engine/engine_wb.c", "src/engine/engine_wi.c", "src/engine/engine_wo.c", "src/engine/engine_wa.c", "src/engine/engine_pt.c", "src/engine/engine_fast.c", "src/engine/engine_d2c.c", "src/engine/engine_flush.c", "src/engine/engine_discard.c", "src/engine/engine_bf.c", "src/engine/engine_inv.c"]}
{"id": "C53", "title": "Requests return what they took", "statement": "From its allocation to its last put, a request holds one reference of its queue, one unit of refcnt.metadata (cached I/O and cleaner) or refcnt.d2c (direct to core), its memory and, if made by ocf_io_new and not yet put by ocf_io_put, one unit of its volume's refcnt. At every moment each counter is the number of its holders; an allocation that fails at any point leaves every counter and all memory as before; after the last put everything is back, each object in the pool it came from; no counter drops below zero and nothing is freed twice.", "quantifier": "for all interleavings of allocations, puts, map allocations, attach and detach, and all patterns of failing allocations", "why_tests_cant": "Needs every combination of failing allocations and of attach running against the allocation of a request.", "anchors": ["src/ocf_request.c", "src/ocf_io.c", "src/ocf_core.c", "src/utils/utils_cleaner.c", "src/mngt/ocf_mngt_cache.c"]}
{"id": "C54", "title": "A cache is freed when its last user is gone, not before", "statement": "Users find a cache, take and put references of it, lock it for reading or writing (waiting or trying), unlock it and stop it, in any interleaving. The cache's memory is never used after it is freed; it is freed exactly when it was stopped and the last reference is put. Its lock is not taken after it was destroyed; a writer is the only holder; every lock call is told its outcome at most once, and exactly once when nothing is under way; success comes with the lock and never while the cache is being stopped; a refusal holds no reference. A stop that fails leaves the cache usable.", "quantifier": "any number of users, references, lock calls and stops, any interleaving of their steps, any failure of memory", "why_tests_cant": "A stop must fall between two particular lines of another thread's lock call; a leaked reference shows only as memory that stays.", "anchors": ["src/mngt/ocf_mngt_common.c:141-401", "src/mngt/ocf_mngt_cache.c:2321-2413", "src/utils/utils_async_lock.c:16-230", "env/posix/ocf_env_refcnt.c:24-65"]}
{"id": "C55", "title": "Cores come and go without leaving anything behind", "statement": "Cores are added, attached, detached, removed; the cache is attached to a device, detached, stopped, loaded; requests run meanwhile. The counts of cores and of inactive cores, and the incomplete state, always tell the cores there are; no two cores share a name or a uuid. An add that succeeds puts the core at the least free place, changes nothing else, and the device's superblock names it; one that fails leaves the cores and what is held as before. Attach and detach take a core from inactive to open and back, keeping its name, uuid and cached data. A removed core's place holds nothing and the superblock no longer names it. A stopped cache has no core. A load restores the cores of the superblock, inactive where the volume cannot be opened. Operations end once requests are put. No NULL pointer is followed, no freed memory used, no allocation lost.", "quantifier": "any number of places, cores and requests, any order of operations, any failure of any call in them, requests at any moment", "why_tests_cant": "Each call inside an operation must be made to fail in turn, in states reached by other operations; what is left behind shows only in a later operation, as a crash or as lost memory.", "anchors": ["src/mngt/ocf_mngt_core.c:124-870", "src/mngt/ocf_mngt_common.c:22-140", "src/mngt/ocf_mngt_cache.c:373-516", "src/mngt/ocf_mngt_cache.c:2171-2214", "src/ocf_volume.c:90-185", "src/ocf_volume.c:440-490"]}
{"id": "C56", "title": "The cleaning policy can be changed under load", "statement": "While requests, runs of the cleaner and core operations call into the cleaning policy, ocf_mngt_cache_cleaning_set_policy replaces it; the cache is attached, loaded, detached and stopped meanwhile. Whoever is inside a policy is inside the current one and finds its context in place; while the context is replaced nobody is inside. No call into the policy is dropped because a change is under way. A change that reports success leaves the new policy with its context; one that reports an error leaves the old policy or NOP, with nothing of the new one left in memory. A change asked for without a cache device is refused or takes effect, without a crash. Between operations the context in memory is exactly that of the policy. Every change ends once the calls it waits for end.", "quantifier": "any number of requests, each with any number of calls, of cleaner runs and of core operations, any interleaving with any sequence of changes, attaches, loads, detaches and stop, any failure of initialising or populating", "why_tests_cant": "The window is a few instructions between reading the counter and entering the policy, in another thread than the change; failures of populate need an allocation to fail at one place, and their effect shows only at the next change.", "anchors": ["src/mngt/ocf_mngt_flush.c:945-1096", "src/cleaning/cleaning_ops.h:84-295", "src/cleaning/cleaning.c:60-121", "env/posix/ocf_env_refcnt.c:9-75", "src/mngt/ocf_mngt_cache.c:727-761", "src/mngt/ocf_mngt_cache.c:1433-1474", "src/mngt/ocf_mngt_cache.c:2003-2054"]}
{"id": "C57", "title": "The context keeps what it holds in step with its references", "statement": "A context is created, referenced, given volume types and a pool of core volumes, and put; caches started on it hold references. Creation succeeds exactly if all its calls do; if it fails nothing is left behind. The context lives as long as a reference of the user or of a cache; the put of the last one gives back the structure, the mutex, the logger, both pools and every type object, and finds no cache on the list. Registering succeeds exactly for a free user id with complete operations, and gives that id a new type and leaves the others; unregistering undoes it. A type object gives back its id. The types of the library stay registered as long as the context. No type object is used after it was freed. The pool's count is the number of its volumes; lookup finds a volume of the uuid and type exactly if there is one; visiting sees all volumes until the visitor stops.", "quantifier": "any sequence of creations, gets, puts, starts and stops of caches, registrations, pool and volume calls, any failure of any call in a creation", "why_tests_cant": "Leaks on the error paths of the creation need each allocation to fail in turn and show only in memory accounting; a type freed under a volume shows only on the next use of that volume.", "anchors": ["src/ocf_ctx.c:22-291", "src/mngt/ocf_mngt_core_pool.c:14-129", "src/ocf_volume.c:35-84", "src/ocf_ctx_priv.h:15-51"]}
{"id": "C58", "title": "A volume gives back what it took and does I/O only while open", "statement": "Volumes are initialised, opened, closed, renamed, moved into a cache by attach and by loading a core from the pool, and destroyed, with I/O on them. What is allocated is at every moment exactly the private parts and copied uuids of the volumes there are; a failed initialisation leaves nothing. Only what was allocated is freed. I/O can be made exactly on volumes that are open and not being closed; a close ends when the last I/O is put and not before. A volume is closed before it is deinitialised. on_init and on_deinit of the type are called in pairs. After an attach or a load from the pool the cache has the volume and the previous holder has nothing of it. No assertion fails. A composite volume opens all its members or none; open, its length is the sum, its ends are the partial sums, its largest I/O the least of the members'; it has at most 16 members, and closing closes all.", "quantifier": "any number of volumes, any sequence of calls, any failure of any call in an initialisation, any number of I/Os, any number and sizes of members", "why_tests_cant": "Leaks and frees of foreign memory show only in memory accounting, after a rename of a core that came from the pool; a counter left frozen shows only if I/O is then made directly on that volume; a handed-over open volume is lost silently.", "anchors": ["src/ocf_volume.c:90-272", "src/ocf_volume.c:446-510", "src/ocf_io.c:76-139", "src/ocf_composite_volume.c:265-411", "src/mngt/ocf_mngt_cache.c:404-452", "src/mngt/ocf_mngt_cache.c:967-1010", "src/mngt/ocf_mngt_core.c:910-942"]}
{"id": "C59", "title": "The library's own flushes, discards, zeroings and page I/O finish exactly once", "statement": "The library flushes, discards and zeroes the cache device and reads and writes single pages of it, a long range in parts. While a range is submitted no part is empty or above the limit, and none leaves the range; when the call returns, the parts contain every byte of the range exactly once; parts of an aligned range are aligned. The completion is called at most once, only after everything was forwarded and every part is complete, with the first error of a part; without memory it is called with that error, nothing is forwarded and nothing stays allocated. Success means that every part succeeded. When all is complete the completion has been called and nothing stays allocated. A page written has the contents of the caller's buffer, a page read successfully has those of the device. Nothing freed is used, and every submission ends.", "quantifier": "any address and length, any number of parts, parts completing in any order relative to the forwarding and with any results, any failing allocation", "why_tests_cant": "Splitting needs ranges above 4 GiB; completions arriving before the submission returns, and several failing parts, need a device driven for that; zeroing is used only for atomic devices without zeroing discard.", "anchors": ["src/utils/utils_io.c:15-199", "src/ocf_request.c:492-536", "src/ocf_request.c:668-679", "src/ocf_request.h:553-566"]}
{"id": "C60", "title": "An active cache always has a usable promotion policy of the type it reports", "statement": "A cache is attached, loaded, activated, detached and stopped, its promotion policy is switched and its parameters are set and read, any allocation may fail. A request of an active cache always finds a policy it can use, of the type reported; with 'nhit' it uses the parameters as set at that moment. Setting a type that does not exist is refused without effect; setting another type succeeds or, when 'nhit' cannot be initialised, leaves 'always' and returns an error; parameters survive a switch. Exactly the values within the limits are accepted, on an active cache only; what was set is read back; parameters never leave their limits. A cache without a device, or in standby, holds no memory for a policy; an active one holds one policy and for 'nhit' one table. No call uses a NULL pointer or fails an assertion.", "quantifier": "any sequence of calls, any failing allocation or initialisation, any cache size, any values", "why_tests_cant": "Errors in the middle of creating the table need injected failures; that memory is lost shows only in accounting; the crashes need calls on a detached cache or with a type out of range.", "anchors": ["src/promotion/promotion.c:28-173", "src/promotion/nhit/nhit.c:20-171", "src/promotion/nhit/nhit_hash.c:130-214", "src/mngt/ocf_mngt_cache.c:248-266", "src/mngt/ocf_mngt_cache.c:1814-1830", "src/mngt/ocf_mngt_cache.c:3638-3708"]}
{"id": "C61", "title": "A queue lives until its last reference is put, is stopped once, and keeps its cache", "statement": "Queues of a cache are created, got, put and visited, references to the cache are taken and given back, the cache is stopped, any allocation may fail. A queue lives from its creation until its last reference is put; then, and only then, its 'stop' is called, once, and it is freed. The cache stays allocated while a queue lives or somebody holds it and is freed when it was stopped and neither is so. Creating a queue succeeds exactly on a cache not stopped when everything can be allocated, and changes nothing when it fails; a cache has at most one management queue. The list of the cache has exactly the live I/O queues, newest first; a visitor sees them in order until it returns an error, which is the result. Stopping the cache ends the I/O queues and leaves the management queue to its user; when the cache is freed every queue was stopped and everything was given back. No destroyed lock is used and no freed queue is touched.", "quantifier": "any sequence of calls, any number of queues, any address the allocator may give, any failing allocation", "why_tests_cant": "That an address is used again depends on the allocator; references held over a stop and failing allocations are rare; a lost spinlock shows only in accounting.", "anchors": ["src/ocf_queue.c:17-161", "src/mngt/ocf_mngt_cache.c:2261-2267", "src/mngt/ocf_mngt_cache.c:2321-2359", "src/mngt/ocf_mngt_common.c:141-146", "src/mngt/ocf_mngt_common.c:391-402"]}
{"id": "C62", "title": "The reallocator gives memory of the size asked, keeps content, and frees each block once by the right function", "statement": "A pointer and a limit are initialised and then reallocated any number of times, with and without copy, up and down, allocations may fail. The caller holds nothing or one block of exactly as many bytes as the limit says. After success there is room for all elements; with copy the content up to what was asked is kept and the rest is zero, without copy a grown block is zero. A failure happens only when more is needed and the allocator has nothing, and changes nothing. A block not held any more was freed, once, by the function of the allocator it came from; memory of others is not touched; asking for nothing frees all. No assertion fails when element size and count are both zero or both not.", "quantifier": "any sequence of calls, any sizes, any address the allocator gives, any failing allocation", "why_tests_cant": "The two allocators are one in user-space tests, so freeing by the wrong function shows nothing; sizes at the boundary and failing allocations are rare.", "anchors": ["src/utils/utils_realloc.c:9-117", "src/cleaning/alru.c:875-942"]}
{"id": "C63", "title": "Starting a cache gives a complete cache or leaves nothing", "statement": "Caches are started in a context, any step of the environment may fail, caches are removed. A start succeeds exactly when the name is not in use and everything asked for can be had. Then all locks, counters and metadata of the cache are initialised, the cache is locked exactly when the caller asked for it, it is listed once and holds the context. A start that fails leaves no memory, lock or counter of the cache, takes no reference and leaves the list of caches and the lock of the context as they were; a name in use is reported as such. Names of caches are unique and the context has one reference for each cache and its own. Undoing uses, deinitialises and destroys only what was initialised.", "quantifier": "any sequence of starts and removals, any failing step, any number of I/O classes, locked or not", "why_tests_cant": "Failures in the middle of starting need injected errors; user-space counters have no state to deinitialise, so errors of undoing show only with other environments.", "anchors": ["src/mngt/ocf_mngt_cache.c:850-965", "src/mngt/ocf_mngt_cache.c:1019-1055", "src/mngt/ocf_mngt_cache.c:1519-1549", "src/mngt/ocf_mngt_cache.c:1570-1650", "src/mngt/ocf_mngt_common.c:264-335"]}
{"id": "C64", "title": "Purging sectors of an atomic cache erases those sectors and no others, and completes once", "statement": "In a cache that stores metadata with each sector, a request is purged and the purge is made persistent. Every sector of the cache where a sector of the request is cached then reads as zeros, and every other byte of the device is as it was, whatever a discard leaves on a device that does not promise zeros. Each such byte is in the range of just one command per entry that marks it; whole cache lines that follow one another are in one command. The completion is called exactly once, after every command has been sent and has ended, with the first error the device reported; an error is noted on the cache. Memory is needed for requests of more than 32 lines only; a failure to get it is reported once. The table is freed.", "quantifier": "all requests (address, length, hits, misses and cache lines in any order), all sizes of a cache line, all orders and errors in which the device ends commands, also while others are still being sent; requests below 4 GiB", "why_tests_cant": "the commands depend on how lines happen to be placed in the cache and on misses between them; the completion depends on the order in which the device ends commands", "anchors": ["src/metadata/metadata_raw_atomic.c:35-205", "src/utils/utils_cache_line.h:170-215", "src/ocf_request.c:518-536", "src/ocf_request.c:668-679", "src/ocf_request.h:557-566", "src/metadata/metadata.c:1179-1202"]}
{"id": "C65", "title": "A visit of all caches keeps each cache alive, sees each once and gives everything back", "statement": "The caches of a context are visited, forward or in reverse, while others start caches, stop them, take and put references at any time. While the visitor has a cache, the visit holds a reference to it and the cache is not deallocated; the lock of the context is not held then. If the visit returns 0, the visitor got, each once and in the order of the list (or the reverse), every cache that was listed when the visit began and is not being stopped, and no cache that was not listed; it always returned 0. If it returns an error, the last call of the visitor returned it and all calls before returned 0, or memory was lacking and the visitor was never called. When it has returned, every reference taken was put once, the memory is freed and the lock free; a cache was deallocated only if it was being stopped and off the list.", "quantifier": "all lists of caches, all visitors, both orders, all interleavings with others starting, stopping, getting and putting caches, allocation failing or not", "why_tests_cant": "whether a cache survives a visit depends on when others stop it and drop their references during the visit", "anchors": ["src/mngt/ocf_mngt_common.c:391-517", "src/mngt/ocf_mngt_common.c:141-146", "src/mngt/ocf_mngt_cache.c:2346-2358"]}
{"id": "C66", "title": "Parameters of cleaning keep to their ranges and mean what they say", "statement": "Setting a parameter of a cleaning policy succeeds exactly if the cache is not in standby, has a device, and the policy has the parameter and the value is in its range. Then the value is read back, no other parameter of any policy changes, and the cleaner is woken exactly if its wake-up time was set; a call that fails changes nothing. Whatever is called, every parameter is in its range. ALRU cleans exactly if the part of dirty lines has reached its limit (below 100), or there was no request for the time set and the last empty run is more than the wake-up time ago, although clocks are kept in 32 bits and wrap. When the limit is not reached the lines cleaned are those last written longer ago than the stale time, at the limit all. The pause to the next run is none after cleaning and otherwise the wake-up time, without overflow.", "quantifier": "all policies, parameters, values, sequences of calls, times and numbers of dirty lines", "why_tests_cant": "the whole space of values and times, with wraps of 32-bit clocks after 49 days, is not run by a test", "anchors": ["src/mngt/ocf_mngt_flush.c:1111-1149", "src/cleaning/cleaning_ops.h:249-271", "src/cleaning/alru.c:586-765", "src/cleaning/alru.c:868-885", "src/cleaning/acp.c:481-535"]}
