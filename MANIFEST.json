{
 "claims": [
  {
   "property": "C01",
   "status": "partial",
   "theorems": [
    "Verif.Engine.reads_permitted_partial",
    "Verif.Engine.reads_permitted_no_wi",
    "Verif.Engine.reads_permitted_no_wb",
    "Verif.Engine.Race.cleaner_overwrites_write_invalidate",
    "Verif.Engine.Race.failed_write_loses_older_write"
   ],
   "note": "All engines (read generic, PT, WO, WT, WB, WI both passes, discard), backfill, eviction/remap, cleaners, any number of concurrent requests, any sizes, data I/Os and metadata flushes failing anywhere. Unconditional when no request uses write-back (reads_permitted_no_wb, discards and power failures included). Otherwise holds under NoStaleWriteback (no cleaner writes back a non-dirty sector under a pending WI write; not needed when no WI write runs, discards allowed) and NoLostDrop (no failing write drops sectors that were dirty). Proved false without either. Permitted values are defined per burst of overlapping writes; after a discard any value is permitted until the next write. d2c is not part of this model."
  },
  {
   "property": "C02",
   "status": "partial",
   "theorems": [
    "Verif.Engine.reads_permitted_after_crashes_partial",
    "Verif.Engine.reads_permitted_after_crashes_no_wi",
    "Verif.Engine.reads_permitted_no_wb",
    "Verif.Engine.CrashRace.purge_loses_acknowledged_write",
    "Verif.Engine.DiscardRace.discard_loses_acknowledged_write",
    "Verif.Engine.CrashRace.cache_error_loses_acknowledged_write",
    "Verif.Engine.CrashRace.flush_error_loses_acknowledged_write"
   ],
   "note": "Power failure between any two steps, any number of times, with failing I/Os. Unconditional when no request uses write-back. Otherwise holds under NoStaleWriteback, NoUnflushedPurge (both not needed without WI writes and discards), NoDirtyDrop and NoFlushError; each proved necessary by an execution that meets the others and loses an acknowledged write. Writes reaching a device are taken as durable; torn sectors and metadata pages are not modelled."
  },
  {
   "property": "C03",
   "status": "proved",
   "theorems": [
    "Verif.Bits.apply_exact",
    "Verif.Bits.run_dirty_imp_valid",
    "Verif.Bits.setBits_exact",
    "Verif.Bits.clearBits_exact",
    "Verif.Bits.testBits_exact",
    "Verif.Bits.testOut_exact",
    "Verif.Bits.testAndSet_exact",
    "Verif.Bits.testAndClear_exact",
    "Verif.Bits.setDirtySecChanged_summary",
    "Verif.Bits.clearDirtySecChanged_summary",
    "Verif.Bits.setValidSecChanged_summary",
    "Verif.Bits.clearValidSecChanged_summary",
    "Verif.Bits.setBits_bug_of_bad_range"
   ],
   "note": "all five bitmap widths"
  },
  {
   "property": "C04",
   "status": "proved",
   "theorems": [
    "Verif.Collision.lookup_exact",
    "Verif.Collision.lookup_injective",
    "Verif.Collision.no_assert",
    "Verif.Collision.core_exact",
    "Verif.Collision.check_exact",
    "Verif.Collision.bucket_frame"
   ],
   "note": "Hash buckets and doubly linked collision chains modelled pointer by pointer; 32-bit/64-bit wrap-around of the hash included. Insertions only after a miss into an unmapped line, removals only of mapped lines (the callers' obligation, shown for eviction in C13/C30); recovery can break this if the on-disk metadata maps one core line twice (not detected by the code)."
  },
  {
   "property": "C05",
   "status": "proved",
   "theorems": [
    "Verif.Lru.list_exact",
    "Verif.Lru.list_frame",
    "Verif.Lru.cache_exact",
    "Verif.Lru.cache_start",
    "Verif.Lru.cache_progress"
   ],
   "note": "Pointer-level model of add/remove/set_hot/balance; all list heads of all partitions share one node array. Sizes, orders and numbers of operations unbounded."
  },
  {
   "property": "C06",
   "status": "proved",
   "theorems": [
    "Verif.Alock.exclusive",
    "Verif.Alock.no_bug"
   ],
   "note": "all executions, any number of requests and lines, any allocation failures"
  },
  {
   "property": "C07",
   "status": "partial",
   "theorems": [
    "Verif.Alock.no_lost_wakeup",
    "Verif.Alock.arrival_order",
    "Verif.Alock.no_overtaking",
    "Verif.Alock.no_bug_partial",
    "Verif.Alock.resumed_once_partial",
    "Verif.Alock.no_deadlock_partial",
    "Verif.Alock.busy_moves_partial",
    "Verif.Alock.readers_wait_for_writer_partial",
    "Verif.Alock.lock_leaked"
   ],
   "note": "full property is false when a waiter allocation fails for a request with two lines in one wait list bucket (lock_leaked); proved for all executions where such a request never fails an allocation. no_deadlock gives an enabled step, fairness of the scheduler is not modelled."
  },
  {
   "property": "C08",
   "status": "proved",
   "theorems": [
    "Verif.AsyncLock.mutual_exclusion",
    "Verif.AsyncLock.arrival_order",
    "Verif.AsyncLock.completed_once",
    "Verif.AsyncLock.free_no_waiters",
    "Verif.AsyncLock.readers_wait_only_for_writer",
    "Verif.AsyncLock.no_bug"
   ],
   "note": "All interleavings of lock, try-lock, unlock, deinit and of the completion callbacks run outside the spin lock."
  },
  {
   "property": "C09",
   "status": "proved",
   "theorems": [
    "Verif.HashLock.lockOrder_mem",
    "Verif.HashLock.lockOrder_ascending",
    "Verif.HashLock.hashInRange_iff",
    "Verif.HashLock.no_deadlock"
   ],
   "note": "32-bit wrap of first hash + count is not modelled"
  },
  {
   "property": "C10",
   "status": "partial",
   "theorems": [
    "Verif.Refcnt.no_entry_when_frozen",
    "Verif.Refcnt.callback_at_most_once",
    "Verif.Refcnt.callback_runs",
    "Verif.Refcnt.no_bug",
    "Verif.Refcnt.fires_when_empty_partial",
    "Verif.Refcnt.fires_with_user_inside"
   ],
   "note": "Callback can run while a user is inside (fires_with_user_inside, a race in the code); proved otherwise for executions without that window. The other parts are proved for all interleavings."
  },
  {
   "property": "C11",
   "status": "partial",
   "theorems": [
    "Verif.Space.min_respected",
    "Verif.Space.min_respected_serial",
    "Verif.Space.below_min_race"
   ],
   "note": "Proved for any class configuration, occupancy and eviction amount when requests evict from the class one at a time; below_min_race shows that two requests evicting at the same time can push a class below a nonzero minimum, because the size is read without a lock. The management API only configures a minimum of 0."
  },
  {
   "property": "C12",
   "status": "proved",
   "theorems": [
    "Verif.Space.sources_ordered",
    "Verif.Space.eligible_exact",
    "Verif.Space.priority_order",
    "Verif.Space.own_class_only",
    "Verif.Space.all_or_nothing",
    "Verif.Space.max_respected"
   ],
   "note": "By design a pinned class above its maximum does lose the excess (comment at ocf_space.c:69-74), and a full class evicts from itself; the theorems state exactly this."
  },
  {
   "property": "C13",
   "status": "proved",
   "theorems": [
    "Verif.Evict.taken_clean_unused",
    "Verif.Evict.taken_once",
    "Verif.Evict.no_assert"
   ],
   "note": "Any number of concurrent ocf_lru_req_clines calls interleaved step by step with lock holders that set and clear dirty bits, move and touch lines."
  },
  {
   "property": "C14",
   "status": "proved",
   "theorems": [
    "Verif.Superblock.loads_old_or_new",
    "Verif.Superblock.completed_save_loads",
    "Verif.Superblock.load_succeeds",
    "Verif.Superblock.two_configurations",
    "Verif.Superblock.both_lost"
   ],
   "note": "Checksums are assumed collision free on the contents that occur; the checksum array (52 bytes in one 512-byte sector) is assumed to be written as a unit, everything else may tear. load_succeeds (not needed by the claim) holds without I/O errors only: both_lost shows that after a failed segment write the next save overwrites the segments in use, so a crash in it leaves only an error."
  },
  {
   "property": "C15",
   "status": "proved",
   "theorems": [
    "Verif.MetaFlush.pages_exact",
    "Verif.MetaFlush.writes_are_runs",
    "Verif.MetaFlush.marked_exact",
    "Verif.MetaFlush.device_current",
    "Verif.MetaFlush.device_only_memory",
    "Verif.MetaFlush.told_once",
    "Verif.MetaFlush.told",
    "Verif.MetaFlush.not_stuck",
    "Verif.MetaFlush.told_before",
    "Verif.MetaFlush.refused_never_told"
   ],
   "note": "For all maps, entries per page and orders of completion. env_sort is assumed to sort. A defect is proved beside it: if a transfer cannot be started for want of memory, the completion is never called (refused_never_told)."
  },
  {
   "property": "C16",
   "status": "partial",
   "theorems": [
    "Verif.MetaIo.no_page_twice",
    "Verif.MetaIo.pages_filled_drained",
    "Verif.MetaIo.reports_once",
    "Verif.MetaIo.report",
    "Verif.MetaIo.buffer_fits",
    "Verif.MetaIo.nothing_after_free",
    "Verif.MetaIo.ends",
    "Verif.MetaIo.at_end",
    "Verif.MetaIo.succeeds",
    "Verif.MetaIo.single_reports",
    "Verif.MetaIo.lock_failure_never_reported",
    "Verif.MetaIo.late_error_never_reported"
   ],
   "note": "All page ranges, part sizes and schedules of the transfer. Proved: no page twice, at most one report, after all transfers, error iff one occurred, every run ends, and a report in the end if nothing failed or if there is one request and no lock failed. False in general (proved): if a lock fails, or another request fails between a request's advance and its test at metadata_io.c:366, nothing is ever reported. Not modelled: allocation failures, and count = 0 (the code returns 0 and never reports)."
  },
  {
   "property": "C17",
   "status": "partial",
   "theorems": [
    "Verif.Layout.attach_cases",
    "Verif.Layout.attach_ok_iff",
    "Verif.Layout.attach_no_bug",
    "Verif.Layout.attach_bounds",
    "Verif.Layout.line_inside",
    "Verif.Layout.lines_apart",
    "Verif.Layout.entry_before_data",
    "Verif.Layout.entries_apart",
    "Verif.Layout.regions_apart",
    "Verif.Layout.posix_line_inside_partial",
    "Verif.Layout.posix_overlap",
    "Verif.Layout.posix_overwrites_metadata"
   ],
   "note": "The search for the number of lines is proved to end with lines that fit, for every device of at least 40 MiB with fewer than 2^32-1 lines and every supported line size; segments, copies and entries are disjoint and precede the data, where pages*PAGE_SIZE is computed in 64 bits. Partial because in the posix environment the product has 32 bits: the statement holds below 4 GiB of metadata and fails above it (posix_overlap, posix_overwrites_metadata). Atomic metadata is not modelled."
  },
  {
   "property": "C18",
   "status": "partial",
   "theorems": [
    "Verif.Cleaner.clean_after_writeback_partial",
    "Verif.Cleaner.error_keeps_dirty_partial",
    "Verif.Cleaner.cleaned_when_finished",
    "Verif.Cleaner.bits_change_logged",
    "Verif.Cleaner.writes_current",
    "Verif.Cleaner.lost_error_cleans"
   ],
   "note": "All entry counts, bitmaps, completion orders, error patterns and changes of lines by others. Missing: two I/Os of one request completing at the same instant on two threads; the forward token then loses an error code and lost_error_cleans proves that a sector whose write failed is marked clean."
  },
  {
   "property": "C19",
   "status": "partial",
   "theorems": [
    "Verif.Cleaner.item_exactly_once",
    "Verif.Cleaner.item_at_most_once",
    "Verif.Cleaner.no_failure",
    "Verif.Cleaner.request_shape",
    "Verif.Cleaner.written_dirty_partial",
    "Verif.Cleaner.clean_sectors_rewritten"
   ],
   "note": "Coverage by exactly one sub-request is fully proved. 'Exactly the dirty ranges' holds only for lines with an invalid sector: a fully valid line is written whole, so clean sectors are rewritten (clean_sectors_rewritten). The exact rule is C45."
  },
  {
   "property": "C20",
   "status": "proved",
   "theorems": [
    "Verif.Composite.forwardIo_exact",
    "Verif.Composite.forwardLoop_in_member",
    "Verif.Composite.forwardIo_out_of_range",
    "Verif.Composite.forwardIoSimple_exact",
    "Verif.Composite.forwardFlush_all"
   ],
   "note": "64-bit address sums are assumed not to wrap; single completion of the parts is C24"
  },
  {
   "property": "C21",
   "status": "proved",
   "theorems": [
    "Verif.Generator.calls_perm",
    "Verif.Generator.populate_exact",
    "Verif.Generator.populate_undefined"
   ],
   "note": "limit 2..2^31; a portion of one line is undefined behaviour in the code (proved); 1<<31 taken as 2^31"
  },
  {
   "property": "C22",
   "status": "proved",
   "theorems": [
    "Verif.Parallelize.finish_once",
    "Verif.Parallelize.stride_partition",
    "Verif.Parallelize.portion_partition"
   ],
   "note": "All interleavings of shard handlers and the runner; both sharding shapes used by handlers partition the items."
  },
  {
   "property": "C23",
   "status": "proved",
   "theorems": [
    "Verif.Pipeline.pipeline_refines",
    "Verif.Pipeline.finish_exactly_once"
   ],
   "note": "Machine refines a structural specification for all handlers, predicates and private states. Assumes each handler calls next or finish exactly once."
  },
  {
   "property": "C24",
   "status": "partial",
   "theorems": [
    "Verif.Forward.completion_once",
    "Verif.Forward.reported_error_real",
    "Verif.Forward.first_error_partial",
    "Verif.Forward.error_lost"
   ],
   "note": "Exactly one callback after all parts is proved for all interleavings. The error part is false of the code under concurrent completions (error_lost: non-atomic update); proved when error updates do not interleave."
  },
  {
   "property": "C25",
   "status": "proved",
   "theorems": [
    "Verif.Queue.run_exactly_once",
    "Verif.Queue.fifo_per_priority",
    "Verif.Queue.high_first",
    "Verif.Queue.run_stops_empty"
   ],
   "note": "All interleavings of push and pop sections."
  },
  {
   "property": "C26",
   "status": "proved",
   "theorems": [
    "Verif.Nhit.tracks_exactly",
    "Verif.Nhit.queue_nodup",
    "Verif.Nhit.admits_exactly",
    "Verif.Nhit.admitted_only_after",
    "Verif.Nhit.lookup_ends",
    "Verif.Nhit.request_decision",
    "Verif.Nhit.buckets_pos",
    "Verif.Nhit.admitted_only_after_threads",
    "Verif.Nhit.found_iff_tracked",
    "Verif.Nhit.slots_apart",
    "Verif.Nhit.locks_ordered",
    "Verif.Nhit.tracked_twice"
   ],
   "note": "For every sequence of accesses and purges the table is a bounded queue with exact counts, and admission is exactly threshold <= count. For any interleaving of threads: nothing tracked is lost, admission only after threshold requests; tracked_twice shows that two threads may both insert a core line. Rings of 2^32 or more entries (2^31 cache lines) are not covered: the code's indices are 32 bits wide."
  },
  {
   "property": "C27",
   "status": "partial",
   "theorems": [
    "Verif.SeqCutoff.cutoff_sound",
    "Verif.SeqCutoff.never_stuck",
    "Verif.SeqCutoff.check_exact_partial",
    "Verif.SeqCutoff.core_exact",
    "Verif.SeqCutoff.policy_iff",
    "Verif.SeqCutoff.policy_off",
    "Verif.SeqCutoff.isOn_iff",
    "Verif.SeqCutoff.stream_cut_off",
    "Verif.SeqCutoff.check_cut_off",
    "Verif.SeqCutoff.reachable_fits",
    "Verif.SeqCutoff.order_restored",
    "Verif.SeqCutoff.promotion_loses_streams",
    "Verif.SeqCutoff.tie_ignores_longer",
    "Verif.SeqCutoff.other_core_continues"
   ],
   "note": "The 'only if' half holds in every reachable state with interleaved updates (cutoff_sound). The 'if' half holds for the streams of a core, and for those of a queue until a stream is promoted from it (check_exact_partial, stream_cut_off); after a promotion it is false of the code (promotion_loses_streams), and with several streams ending at one address the longest may be ignored (tie_ignores_longer)."
  },
  {
   "property": "C28",
   "status": "proved",
   "theorems": [
    "Verif.Alru.lists_exact",
    "Verif.Alru.line_exact",
    "Verif.Alru.lists_in_order",
    "Verif.Alru.no_assertion",
    "Verif.Alru.populate_exact",
    "Verif.Alru.touch_moves",
    "Verif.Alru.purge_removes",
    "Verif.Alru.lists_by_time",
    "Verif.Alru.collect_oldest",
    "Verif.Alru.collect_nodup",
    "Verif.Alru.dirty_ratio_exact",
    "Verif.Alru.dirty_ratio_overflow"
   ],
   "note": "For every sequence of operations from the choice of the policy on, with the bits of a line and its list changed in separate steps and any interleaving of the 32 shards that fill the lists. Order of last write: a write to a line and a move to another I/O class both put it at the head. The lists of a cache loaded after a clean shutdown are those that were saved; the loading is not modelled. dirty_ratio_overflow is a defect of check_for_dirty_ratio."
  },
  {
   "property": "C29",
   "status": "partial",
   "theorems": [
    "Verif.Acp.bucket_matches",
    "Verif.Acp.dirty_selectable",
    "Verif.Acp.untouched_rounded_down",
    "Verif.Acp.tenth_selectable",
    "Verif.Acp.touched_by",
    "Verif.Acp.touched_stays",
    "Verif.Acp.no_assertion",
    "Verif.Acp.flags_agree",
    "Verif.Acp.selected_dirtiest",
    "Verif.Acp.some_selected",
    "Verif.Acp.pass_exact",
    "Verif.Acp.pass_collects",
    "Verif.Acp.hidden_after_choose",
    "Verif.Acp.backoff_inverted",
    "Verif.Acp.load_hides",
    "Verif.Acp.load_asserts",
    "Verif.Acp.last_shard_skipped",
    "Verif.Acp.alloc_failure_asserts"
   ],
   "note": "Holds for chunks touched since the buckets were filled, in runs started on a clean cache or by populate. The code violates it otherwise, proved: populate rounds the share down, so a chunk with less than a tenth dirty is hidden until touched (hidden_after_choose); after a clean shutdown the buckets are not filled (load_hides, load_asserts); the backoff test is inverted (backoff_inverted); the last shard is skipped for more than 2^32-32 lines; a failed table allocation asserts."
  },
  {
   "property": "C30",
   "status": "proved",
   "theorems": [
    "Verif.Lru.cache_exact",
    "Verif.Lru.sizes_sum",
    "Verif.Lru.cache_progress",
    "Verif.Lru.fill_none"
   ],
   "note": "From attach or recovery, any sequence of repart/touch/clean/dirty operations: each line on exactly one list, reported sizes equal line counts and add up. Operations are atomic (they run under the LRU list lock)."
  },
  {
   "property": "C31",
   "status": "partial",
   "theorems": [
    "Verif.Account.dirty_exact",
    "Verif.Account.cached_accounts",
    "Verif.Account.cached_exact_partial",
    "Verif.Account.clean_core_no_dirty_sector",
    "Verif.Account.no_assert",
    "Verif.Account.repart_moves",
    "Verif.Account.cached_drifts",
    "Verif.Account.cached_negative"
   ],
   "note": "Dirty counters are exact in every execution; cached counters are exact as long as no request waits for a line being invalidated, and otherwise differ by exactly the events counted in cached_accounts. The full statement is false of the code: cached_drifts and cached_negative are executions where the counter is wrong."
  },
  {
   "property": "C32",
   "status": "partial",
   "theorems": [
    "Verif.FlushMngt.core_flush_clean_partial",
    "Verif.FlushMngt.cache_flush_clean_partial",
    "Verif.FlushMngt.purge_removes_clean_partial",
    "Verif.FlushMngt.no_assert",
    "Verif.FlushMngt.completes_once",
    "Verif.FlushMngt.error_reported",
    "Verif.FlushMngt.error_has_cause",
    "Verif.FlushMngt.portion_progress",
    "Verif.FlushMngt.portion_bounds",
    "Verif.FlushMngt.early_completion_asserts"
   ],
   "note": "Core and cache flush (ocf_mngt_flush.c) from the freeze of dirty requests to the completion: table loop, containers, portions, errors, interruption, interleaved with user requests and other cleaning. Partial: the theorems take a cleaner which reports a portion as finished without error only when its lines are clean (C18/C46; the code can report too early, early_completion_asserts shows the consequence), a sector is cleaned in one step, a user write changes core and cache in one step, and the counter of dirty lines is read as the exact number (C31)."
  },
  {
   "property": "C33",
   "status": "partial",
   "theorems": [
    "Verif.Mode.bypass_pt",
    "Verif.Mode.resolve_exact",
    "Verif.Mode.engine_total",
    "Verif.Mode.engine_by_mode",
    "Verif.Mode.dirty_only_if_allowed_partial",
    "Verif.Mode.fast_path_ignores_mode",
    "Verif.Mode.fallback_sticky",
    "Verif.Mode.setMode_legal"
   ],
   "note": "Resolution is proved exact for all configurations. That lazy engines are used only when dirty data is allowed is proved for use_submit_io_fast = false (the default); with it set the code violates the property (fast_path_ignores_mode)."
  },
  {
   "property": "C34",
   "status": "proved",
   "theorems": [
    "Verif.Geometry.sectors_exact",
    "Verif.Geometry.lines_exact",
    "Verif.Geometry.info_exact",
    "Verif.Geometry.sequential_sound",
    "Verif.Geometry.cache_io_exact",
    "Verif.Geometry.overlay_exact"
   ],
   "note": "For all line sizes, addresses, lengths and maps. Addresses are natural numbers: wrap at 2^64 is not modelled. The dirty and repartition counters of the request information are not modelled."
  },
  {
   "property": "C35",
   "status": "partial",
   "theorems": [
    "Verif.Recovery.keeps_exactly_dirty",
    "Verif.Recovery.lists_exact",
    "Verif.Recovery.counters_exact",
    "Verif.Recovery.partition_sizes",
    "Verif.Recovery.refused_iff_partial",
    "Verif.Recovery.no_assert",
    "Verif.Recovery.step_decreases",
    "Verif.Recovery.ends",
    "Verif.Recovery.accepted",
    "Verif.Recovery.lookup_after",
    "Verif.Recovery.duplicate_accepted"
   ],
   "note": "All contents, sizes and interleavings of the shards. Refusal is proved equivalent to a line with a dirty invalid sector, an illegal core id or dirty data of an unconfigured core. Two lines holding the same core line are not refused by the code (duplicate_accepted), so lookups are proved exact only without such a pair."
  },
  {
   "property": "C36",
   "status": "proved",
   "theorems": [
    "Verif.SbValidate.validate_ok_iff",
    "Verif.SbValidate.no_metadata_iff",
    "Verif.SbValidate.metadata_ver_iff",
    "Verif.SbValidate.crc_mismatch_iff",
    "Verif.SbValidate.inval_iff",
    "Verif.SbValidate.properties_ok_iff",
    "Verif.SbValidate.load_ok",
    "Verif.SbValidate.load_error_of_invalid",
    "Verif.SbValidate.load_no_assert",
    "Verif.SbValidate.load_fail_restores",
    "Verif.SbValidate.validateCores_iff",
    "Verif.SbValidate.probe_status",
    "Verif.SbValidate.probe_ignores_checksum",
    "Verif.SbValidate.uuid_not_restored"
   ],
   "note": "Fields that the code does not validate (cachelines, curr_core_seq_no, policy parameters) are left out. Found: probe does not compare the checksum; a failed load leaves the core UUIDs of the device in memory."
  },
  {
   "property": "C37",
   "status": "proved",
   "theorems": [
    "Verif.IdxList.op_exact",
    "Verif.IdxList.read_exact"
   ],
   "note": "Pointer-level model of utils_list including the sort; comparison function is pure (the side effect of ocf_user_part_lst_cmp_valid on flags.eviction is modelled with the I/O class selection)."
  },
  {
   "property": "C38",
   "status": "partial",
   "theorems": [
    "Verif.IoClass.init_succeeds",
    "Verif.IoClass.config_sane",
    "Verif.IoClass.success_iff",
    "Verif.IoClass.configured_exact",
    "Verif.IoClass.rejected_unchanged",
    "Verif.IoClass.all_or_nothing_partial",
    "Verif.IoClass.first_refused_unchanged",
    "Verif.IoClass.rollback_lost"
   ],
   "note": "Not all-or-nothing in the code: the failure path restores only the list links, so classes edited before a refused entry keep the new configuration (rollback_lost). Proved: state stays sane under any calls, success exactly characterised, successful calls have exactly the asked effect, validation failures change nothing, a refused call changes at most the classes named before the refused entry."
  },
  {
   "property": "C39",
   "status": "proved",
   "theorems": [
    "Verif.CoreId.newId_exact",
    "Verif.CoreId.ids_distinct"
   ],
   "note": "For any limit and bitmap."
  },
  {
   "property": "C40",
   "status": "partial",
   "theorems": [
    "Verif.Discard.bits_exact",
    "Verif.Discard.bits_in_order",
    "Verif.Discard.purge_valid",
    "Verif.Discard.purge_mapped",
    "Verif.Discard.map_large_enough",
    "Verif.Discard.step_fits",
    "Verif.Discard.completed_once",
    "Verif.Discard.references",
    "Verif.Discard.after_done",
    "Verif.Discard.step_decreases",
    "Verif.Discard.not_stuck",
    "Verif.Discard.reports_errors_partial",
    "Verif.Discard.drops_all_partial",
    "Verif.Discard.keeps_others",
    "Verif.Discard.lock_error_ignored",
    "Verif.Discard.flush_error_ignored",
    "Verif.Discard.recached",
    "Verif.Discard.refused_keeps_reference",
    "Verif.Discard.zero_once_partial",
    "Verif.Discard.zero_twice"
   ],
   "note": "Completion exactly once, the steps, bits and map sizes are proved in full; removal of all copies holds if no lock allocation failed and nobody else uses the range, error reporting except for lock errors and early metadata flush errors. The excluded cases are shown to fail in the code (lock_error_ignored, flush_error_ignored, recached)."
  },
  {
   "property": "C41",
   "status": "proved",
   "theorems": [
    "Verif.Mpool.order_exact",
    "Verif.Mpool.new_fits",
    "Verif.Mpool.del_matches",
    "Verif.Mpool.request_fits",
    "Verif.Mpool.alockSize_fits",
    "Verif.Mpool.map_fits"
   ],
   "note": "Sizes are assumed to fit 32 bits, as the code computes them so; count 0 is not requested by the callers (a request has at least one line)."
  },
  {
   "property": "C42",
   "status": "partial",
   "theorems": [
    "Verif.Stats.kind_exact",
    "Verif.Stats.counters_exact",
    "Verif.Stats.misses_le_total",
    "Verif.Stats.collected_between",
    "Verif.Stats.requests_add_up",
    "Verif.Stats.report_consistent_partial",
    "Verif.Stats.report_exact",
    "Verif.Stats.pair_adds_up",
    "Verif.Stats.blocks_round_up",
    "Verif.Stats.cache_usage",
    "Verif.Stats.core_usage",
    "Verif.Stats.part_usage",
    "Verif.Stats.reset_underflow",
    "Verif.Stats.usage_underflow"
   ],
   "note": "Request figures add up and percentages are at most 100% for every collection running together with any number of updates, without a reset of the counters; reset_underflow shows that a reset in the middle of an update makes the hits 2^64-1. Usage percentages hold if the numbers read satisfy dirty <= occupancy <= size; usage_underflow shows that concurrent reads need not. Values are assumed below 2^64/10000."
  },
  {
   "property": "C43",
   "status": "proved",
   "theorems": [
    "Verif.RbTree.find_iff",
    "Verif.RbTree.find_ring",
    "Verif.RbTree.find_log",
    "Verif.RbTree.update_in_place",
    "Verif.RbTree.decrease_splits_equal",
    "Verif.RbTree.example_run"
   ],
   "note": "Pointer-level model of utils_rbtree.c. For every heap of nodes with any keys and every sequence of insertions of absent and removals of stored nodes: no null pointer is followed, all loops end, and find returns a node iff one with the key is stored; nodes with equal keys are all in the ring offered to tree->find; a search needs at most 2 log2(n+1) rounds; a key changed in place with the agreement of can_update to a not smaller key keeps all that (a witness shows that it does not for a smaller key, which the only caller does not use)."
  },
  {
   "property": "C44",
   "status": "proved",
   "theorems": [
    "Verif.Evict.search_exhaustive",
    "Verif.Evict.log_sound",
    "Verif.Evict.round_robin",
    "Verif.Evict.locks_exact",
    "Verif.Evict.no_list_lock",
    "Verif.Evict.slots_exact"
   ],
   "note": "Same model as C13."
  },
  {
   "property": "C45",
   "status": "proved",
   "theorems": [
    "Verif.Cleaner.written_once",
    "Verif.Cleaner.ranges_apart"
   ],
   "note": "Exact set of written sectors for all bitmaps."
  },
  {
   "property": "C46",
   "status": "partial",
   "theorems": [
    "Verif.Cleaner.Done.completes_once_partial",
    "Verif.Cleaner.Done.completes_at_end",
    "Verif.Cleaner.Done.completes_twice",
    "Verif.Cleaner.Done.completes_early"
   ],
   "note": "Proved if a request that waited for locks starts after the counter was incremented for it. The code increments after the lock call, so a request can finish first: completes_twice and completes_early prove the double and the premature completion."
  },
  {
   "property": "C47",
   "status": "proved",
   "theorems": [
    "Verif.MetaLock.never_together",
    "Verif.MetaLock.no_deadlock",
    "Verif.MetaLock.run_bounded",
    "Verif.MetaLock.all_finish",
    "Verif.MetaLock.all_released",
    "Verif.MetaLock.access_held",
    "Verif.MetaLock.alru_sync_deadlock"
   ],
   "note": "Any number of threads, each running any list of the modelled code paths; readers may be made to wait behind waiting writers. Cleaning orders are taken to run later on a queue: alru_sync_deadlock shows that alru_clean blocks itself if device and queue both work in the calling context. The recovery code that takes bucket locks without global access, and the cache line locks, are not part of this model."
  },
  {
   "property": "C48",
   "status": "partial",
   "theorems": [
    "Verif.LruClean.one_order",
    "Verif.LruClean.order_locked",
    "Verif.LruClean.unlock_held",
    "Verif.LruClean.all_returned",
    "Verif.LruClean.zero_quiet",
    "Verif.LruClean.frozen_closed",
    "Verif.LruClean.runs_again_partial",
    "Verif.LruClean.stuck_after_empty_run"
   ],
   "note": "All parts but the last proved in full. That the next request can start a run fails in the code: after a run that found no line the flag cleaner_running stays set (stuck_after_empty_run); runs_again_partial assumes that no run found nothing."
  },
  {
   "property": "C49",
   "status": "proved",
   "theorems": [
    "Verif.MetaDev.never_older",
    "Verif.MetaDev.known",
    "Verif.MetaDev.durable",
    "Verif.MetaDev.durable_later",
    "Verif.MetaDev.no_overlap",
    "Verif.MetaDev.whole_page",
    "Verif.MetaDev.untouched",
    "Verif.MetaDev.all_unlocked"
   ],
   "note": "Page locks as exclusive locks (C06); the cutting of a flush into requests is C16; copying a page is one step since the page is locked against changes meanwhile (C47)."
  },
  {
   "property": "C50",
   "status": "partial",
   "theorems": [
    "Verif.MetaRaw.entry_in_pool",
    "Verif.MetaRaw.entry_written",
    "Verif.MetaRaw.written_only",
    "Verif.MetaRaw.roundtrip",
    "Verif.MetaRaw.partial_flush",
    "Verif.MetaRaw.drain_entry",
    "Verif.MetaRaw.copy_place",
    "Verif.MetaRaw.zeroed",
    "Verif.MetaRaw.checksum_roundtrip",
    "Verif.MetaRaw.dyn_get",
    "Verif.MetaRaw.dyn_stored",
    "Verif.MetaRaw.dyn_roundtrip",
    "Verif.MetaRaw.dyn_load_succeeds",
    "Verif.MetaRaw.dyn_accepted_partial",
    "Verif.MetaRaw.zero_page_rejected",
    "Verif.MetaRaw.count_drifts"
   ],
   "note": "The checksum of the UUID container holds only when no allocated page is zero (dyn_accepted_partial); zero_page_rejected proves the code fails otherwise. All else holds as stated."
  },
  {
   "property": "C51",
   "status": "partial",
   "theorems": [
    "Verif.Passive.accepted_iff",
    "Verif.Passive.let_through",
    "Verif.Passive.plan_exact",
    "Verif.Passive.own_lock",
    "Verif.Passive.exclusive",
    "Verif.Passive.contents",
    "Verif.Passive.followed",
    "Verif.Passive.serial",
    "Verif.Passive.unlocked",
    "Verif.Passive.ends_once",
    "Verif.Passive.error_told",
    "Verif.Passive.error_device",
    "Verif.Passive.error_kept",
    "Verif.Passive.quiet_after",
    "Verif.Passive.frozen_refused",
    "Verif.Passive.counted_partial",
    "Verif.Passive.reference_lost",
    "Verif.Passive.empty_write_copies_all",
    "Verif.Passive.tail_not_refused"
   ],
   "note": "Proved for writes of at least one byte. Two defects are proved instead of the full statement: a request to a cache that is not standby keeps its reference for ever (reference_lost, so the count is exact only without such requests: counted_partial), and a write of no bytes at address 0 copies all pages of both containers without a lock (empty_write_copies_all). An unaligned write that begins in the last metadata page is let through (tail_not_refused). Flushes and discards of the volume are not modelled."
  },
  {
   "property": "C52",
   "status": "partial",
   "theorems": [
    "Verif.ReqRef.never_used_freed_partial",
    "Verif.ReqRef.ended_once_partial",
    "Verif.ReqRef.nothing_left_partial",
    "Verif.ReqRef.not_forgotten_partial",
    "Verif.ReqRef.resumed",
    "Verif.ReqRef.d2c_flush_used_freed",
    "Verif.ReqRef.d2c_discard_used_freed",
    "Verif.ReqRef.discard_no_memory_leaks",
    "Verif.ReqRef.leak_stays",
    "Verif.ReqRef.discard_used_freed"
   ],
   "note": "Reads and writes in full. Partial: flushes and discards on a detached cache, discards without memory for the map, and discards whose continuation runs before ocf_hb_req_prot_unlock_rd returned are excluded; each exclusion is a proved defect. Branch conditions are free choices; the data they depend on are not in this model. ocf_engine_write_zero and prefetching are not covered; that requests do end (progress of devices and locks) is not claimed."
  },
  {
   "property": "C53",
   "status": "partial",
   "theorems": [
    "Verif.ReqAlloc.counted",
    "Verif.ReqAlloc.all_returned_partial",
    "Verif.ReqAlloc.failed_keeps",
    "Verif.ReqAlloc.cleaner_result",
    "Verif.ReqAlloc.bug_only_race",
    "Verif.ReqAlloc.attach_never_finishes",
    "Verif.ReqAlloc.d2c_leak",
    "Verif.ReqAlloc.new_in_attach_bug"
   ],
   "note": "Proved for all counters but refcnt.d2c. Does not hold in the code for it: ocf_req_new does not give refcnt.d2c back when ocf_req_new_d2c finds no memory (d2c_leak), after which no attach finishes (attach_never_finishes). The only assertion that can fail is in ocf_req_new racing with the switch of an attach (bug_only_race, new_in_attach_bug)."
  },
  {
   "property": "C54",
   "status": "partial",
   "theorems": [
    "Verif.MngtLock.never_used_freed",
    "Verif.MngtLock.lock_alive",
    "Verif.MngtLock.counted",
    "Verif.MngtLock.freed_iff",
    "Verif.MngtLock.freed_at_end_partial",
    "Verif.MngtLock.freed_unowned",
    "Verif.MngtLock.exclusive",
    "Verif.MngtLock.told_once",
    "Verif.MngtLock.outcome",
    "Verif.MngtLock.all_told",
    "Verif.MngtLock.stopping_why",
    "Verif.MngtLock.usable",
    "Verif.MngtLock.leak_forever",
    "Verif.MngtLock.trylock_leak",
    "Verif.MngtLock.unlock_after_destroy"
   ],
   "note": "All proved but the freeing of a cache whose trylock was refused after it got the lock: the code keeps that reference for ever (trylock_leak), so 'a refusal holds no reference' fails there. The unlock by the user that stopped the cache uses a destroyed lock (unlock_after_destroy)."
  },
  {
   "property": "C55",
   "status": "partial",
   "theorems": [
    "Verif.CoreMngt.counted",
    "Verif.CoreMngt.distinct",
    "Verif.CoreMngt.open_ready_partial",
    "Verif.CoreMngt.released_partial",
    "Verif.CoreMngt.no_crash_partial",
    "Verif.CoreMngt.no_leak_partial",
    "Verif.CoreMngt.no_use_freed_partial",
    "Verif.CoreMngt.device_current_partial",
    "Verif.CoreMngt.data_has_core_partial",
    "Verif.CoreMngt.stopped_clean",
    "Verif.CoreMngt.add_ok",
    "Verif.CoreMngt.add_error_partial",
    "Verif.CoreMngt.add_fine",
    "Verif.CoreMngt.attach_ok",
    "Verif.CoreMngt.attach_error_partial",
    "Verif.CoreMngt.attach_fine",
    "Verif.CoreMngt.detach_ok",
    "Verif.CoreMngt.detach_start",
    "Verif.CoreMngt.removed_partial",
    "Verif.CoreMngt.remove_error_partial",
    "Verif.CoreMngt.ends_partial",
    "Verif.CoreMngt.load_ok",
    "Verif.CoreMngt.load_error_partial",
    "Verif.CoreMngt.load_fine",
    "Verif.CoreMngt.attach_error_opens",
    "Verif.CoreMngt.attach_error_crash",
    "Verif.CoreMngt.add_error_on_device",
    "Verif.CoreMngt.remove_error_drops_data",
    "Verif.CoreMngt.remove_error_removed",
    "Verif.CoreMngt.remove_busy_uses_freed",
    "Verif.CoreMngt.inactive_front_left",
    "Verif.CoreMngt.inactive_front_leaks",
    "Verif.CoreMngt.load_error_leaks",
    "Verif.CoreMngt.add_needs",
    "Verif.CoreMngt.attach_needs",
    "Verif.CoreMngt.load_needs"
   ],
   "note": "Proved for all places, orders and failures: counts, distinct names, add success/failure in memory, attach, detach, removal, stop, load, termination. Missing because the code does otherwise (each shown by a theorem): an attach failing at the front volume leaves the core open and later crashes; an add failing there stays on the device; failed removals drop data or have removed the core; counters are freed before requests are waited for; a load opens the front volume of inactive cores, which is then never closed; a failed load leaks core volumes."
  },
  {
   "property": "C56",
   "status": "partial",
   "theorems": [
    "Verif.PolicySwitch.inside_safe",
    "Verif.PolicySwitch.replacing_alone",
    "Verif.PolicySwitch.call_safe",
    "Verif.PolicySwitch.crash_where",
    "Verif.PolicySwitch.never_skipped",
    "Verif.PolicySwitch.reports_true",
    "Verif.PolicySwitch.strict_safe_partial",
    "Verif.PolicySwitch.strict_context_partial",
    "Verif.PolicySwitch.attached_context",
    "Verif.PolicySwitch.detached_never_done",
    "Verif.PolicySwitch.old_steps_end",
    "Verif.PolicySwitch.not_stuck",
    "Verif.PolicySwitch.detached_crashes",
    "Verif.PolicySwitch.populate_failure_leaves",
    "Verif.PolicySwitch.load_failure_leaves"
   ],
   "note": "Proved for all interleavings and failures: calls find the current policy with its context, nobody inside while it is replaced, no call dropped, reports true, every change ends; the only crashes are a change without a cache device and ACP initialised over a context left behind. strict_safe_partial and strict_context_partial assume that populate does not fail, that a load does not fail after initialising the policy, and (the first) that changes are asked for with a cache device only; without these the code crashes or loses memory (detached_crashes, populate_failure_leaves, load_failure_leaves)."
  },
  {
   "property": "C57",
   "status": "partial",
   "theorems": [
    "Verif.Ctx.create_ok_iff",
    "Verif.Ctx.create_ok",
    "Verif.Ctx.create_error_partial",
    "Verif.Ctx.refs_counted",
    "Verif.Ctx.put_last",
    "Verif.Ctx.no_bug",
    "Verif.Ctx.held_once",
    "Verif.Ctx.nothing_left_partial",
    "Verif.Ctx.types_exact_partial",
    "Verif.Ctx.type_live",
    "Verif.Ctx.register_ok_iff",
    "Verif.Ctx.register_fails",
    "Verif.Ctx.register_does",
    "Verif.Ctx.unregister_does",
    "Verif.Ctx.id_of_type",
    "Verif.Ctx.id_none",
    "Verif.Ctx.id_of_null",
    "Verif.Ctx.library_types_partial",
    "Verif.Ctx.no_freed_type_partial",
    "Verif.Ctx.destroy_pool",
    "Verif.Ctx.pool_count",
    "Verif.Ctx.lookup_iff",
    "Verif.Ctx.pool_add",
    "Verif.Ctx.pool_take",
    "Verif.Ctx.visit_does",
    "Verif.Ctx.mutex_left",
    "Verif.Ctx.type_left",
    "Verif.Ctx.library_type_lost",
    "Verif.Ctx.freed_type_used"
   ],
   "note": "Proved in full: when creation succeeds and what it makes, reference counting, the last put, registering and unregistering, ids of types, the pool. Partial because the code does less than the statement: a failed creation never destroys the mutex, leaves the core type if the cache type fails and the cache type if the composite type fails (create_error_partial gives the exact leftovers, mutex_left and type_left the witnesses), so nothing_left and types_exact assume no creation failed; the public unregister call accepts the ids of the library's types (library_type_lost), so library_types assumes the user does not; a type can be unregistered while volumes of it exist (freed_type_used), so no_freed_type assumes it is not."
  },
  {
   "property": "C58",
   "status": "partial",
   "theorems": [
    "Verif.Volume.memory_exact",
    "Verif.Volume.nothing_left",
    "Verif.Volume.frees_allocated_partial",
    "Verif.Volume.uuid_memory_partial",
    "Verif.Volume.init_ok_iff",
    "Verif.Volume.init_fails",
    "Verif.Volume.init_does",
    "Verif.Volume.io_open",
    "Verif.Volume.io_accepted_partial",
    "Verif.Volume.io_refused",
    "Verif.Volume.open_ok_iff",
    "Verif.Volume.close_waits",
    "Verif.Volume.close_ends",
    "Verif.Volume.load_does",
    "Verif.Volume.attach_does",
    "Verif.Volume.no_bug_partial",
    "Verif.Volume.closed_first_partial",
    "Verif.Volume.hook_iff",
    "Verif.Volume.deinit_hook",
    "Verif.Volume.members_max",
    "Verif.Volume.add_iff",
    "Verif.Volume.comp_open_iff",
    "Verif.Volume.comp_open_does",
    "Verif.Volume.comp_open_fails",
    "Verif.Volume.comp_close",
    "Verif.Volume.comp_visit",
    "Verif.Volume.pool_core_stuck",
    "Verif.Volume.load_loses",
    "Verif.Volume.renamed_frees",
    "Verif.Volume.attach_unclosed",
    "Verif.Volume.pool_io_bug",
    "Verif.Volume.anon_deinit"
   ],
   "note": "Proved in full: the exact account of memory, initialising, opening, closing, composite volumes. Partial because the code does less than the statement: ocf_volume_set_uuid keeps uuid_copy, so a core from the pool that is renamed frees the caller's memory (renamed_frees), and frees_allocated and uuid_memory assume no rename; ocf_volume_move keeps the frozen counter of the target, so a core from the pool takes no I/O on its volume (pool_core_stuck), and io_accepted excludes it; move frees the target's private part without on_deinit (load_loses), and a volume without uuid gets on_deinit without on_init (anon_deinit); attach given an open volume destroys it unclosed (attach_unclosed; closed_first_partial says this is the only way); taking a pool volume with I/O on it fails an assertion (pool_io_bug; no_bug_partial says this is the only way)."
  },
  {
   "property": "C59",
   "status": "partial",
   "theorems": [
    "Verif.Submit.parts_in",
    "Verif.Submit.parts_cover",
    "Verif.Submit.parts_aligned",
    "Verif.Submit.single_part",
    "Verif.Submit.report_once",
    "Verif.Submit.success_means",
    "Verif.Submit.failure_means",
    "Verif.Submit.reports_partial",
    "Verif.Submit.zeros_never",
    "Verif.Submit.crash_zeros",
    "Verif.Submit.alive",
    "Verif.Submit.page_written",
    "Verif.Submit.page_read",
    "Verif.Submit.page_error_overwrites",
    "Verif.Submit.run_bounded",
    "Verif.Submit.stuck_over",
    "Verif.Submit.no_memory"
   ],
   "note": "Partial because zeroing never reports: ocf_submit_cache_write_zeros does not set the completion of its request, so that when the last part completes a NULL function is called and context and request are lost (zeros_never). For flush, discard and pages all of it holds (reports_partial). A page read that fails still overwrites the caller's buffer (page_error_overwrites). The forwarding counter and the race of two errors are in C24."
  },
  {
   "property": "C60",
   "status": "partial",
   "theorems": [
    "Verif.Promo.request_ok",
    "Verif.Promo.type_true",
    "Verif.Promo.held_exact",
    "Verif.Promo.leak_spin",
    "Verif.Promo.setPolicy_active",
    "Verif.Promo.setParam_spec",
    "Verif.Promo.get_after_set",
    "Verif.Promo.params_valid",
    "Verif.Promo.attach_defaults",
    "Verif.Promo.safe_partial",
    "Verif.Promo.fatal",
    "Verif.Promo.ring_lost"
   ],
   "note": "Partial because of three defects, each proved: ocf_mngt_cache_promotion_set_policy on a cache without a device overwrites its error and uses a NULL policy; set_param and get_param with a type out of range fail an assertion instead of returning an error (both: fatal; safe_partial covers every other call); a ring buffer is lost when the spinlock of the table cannot be initialised (ring_lost; leak_spin: only then). Parameters are reset by every attach while the type stays (attach_defaults). Parameters from a superblock are not validated by the code; params_valid assumes them valid."
  },
  {
   "property": "C61",
   "status": "partial",
   "theorems": [
    "Verif.QueueLife.cache_kept",
    "Verif.QueueLife.cache_freed_iff",
    "Verif.QueueLife.stop_once",
    "Verif.QueueLife.cache_refs_spec",
    "Verif.QueueLife.get_spec",
    "Verif.QueueLife.put_more",
    "Verif.QueueLife.put_last",
    "Verif.QueueLife.create_spec",
    "Verif.QueueLife.create_fails_partial",
    "Verif.QueueLife.create_mngt_spec",
    "Verif.QueueLife.mngt_once",
    "Verif.QueueLife.spins_counted",
    "Verif.QueueLife.linked_partial",
    "Verif.QueueLife.no_misuse_partial",
    "Verif.QueueLife.stop_spec_partial",
    "Verif.QueueLife.all_back_partial",
    "Verif.QueueLife.visit_spec",
    "Verif.QueueLife.create_loses",
    "Verif.QueueLife.stale_mngt",
    "Verif.QueueLife.held_over_stop"
   ],
   "note": "The life of queues and of the cache is proved for all callers. Missing, with proved witnesses: creation failing at the sequential cutoff structure loses an initialised spinlock (create_loses); the list and its lock are proved right only for callers that keep the management queue until the cache is stopped (stale_mngt: cache->mngt_queue is never cleared, a new queue at the same address is taken for it) and hold no I/O queue over the stop (held_over_stop: its unlinking takes a destroyed lock)."
  },
  {
   "property": "C62",
   "status": "partial",
   "theorems": [
    "Verif.Realloc.no_misuse",
    "Verif.Realloc.limit_true",
    "Verif.Realloc.frame",
    "Verif.Realloc.fails_iff",
    "Verif.Realloc.copy_spec",
    "Verif.Realloc.plain_spec",
    "Verif.Realloc.room_partial",
    "Verif.Realloc.deinit_spec",
    "Verif.Realloc.write_spec",
    "Verif.Realloc.overflow_lies"
   ],
   "note": "All proved for any sequence of calls, but room_partial needs size * count to fit in 64 bits: the code does not check it, and a product that wraps to zero succeeds without any memory (overflow_lies)."
  },
  {
   "property": "C63",
   "status": "partial",
   "theorems": [
    "Verif.CacheStart.start_eq",
    "Verif.CacheStart.start_ok",
    "Verif.CacheStart.start_fails",
    "Verif.CacheStart.start_exist",
    "Verif.CacheStart.no_misuse_partial",
    "Verif.CacheStart.misuse_bound",
    "Verif.CacheStart.names_unique",
    "Verif.CacheStart.undo_counter_too_many",
    "Verif.CacheStart.undo_lock_late"
   ],
   "note": "All but the last sentence is proved. Undoing is proved free of misuse only when starting succeeds, the name is in use, or the failure comes before the counters; otherwise one class counter too many is deinitialised (undo_counter_too_many) and the lock is deinitialised after the counter of references it takes (undo_lock_late); there are never more than these two misuses (misuse_bound)."
  },
  {
   "property": "C64",
   "status": "proved",
   "theorems": [
    "Verif.RawAtomic.mark_records",
    "Verif.RawAtomic.mark_other",
    "Verif.RawAtomic.commands_exact",
    "Verif.RawAtomic.commands_kind",
    "Verif.RawAtomic.contents",
    "Verif.RawAtomic.merged",
    "Verif.RawAtomic.complete_once",
    "Verif.RawAtomic.complete_due",
    "Verif.RawAtomic.ends",
    "Verif.RawAtomic.at_end",
    "Verif.RawAtomic.no_memory",
    "Verif.RawAtomic.purge_wanted",
    "Verif.RawAtomic.purge_shape",
    "Verif.RawAtomic.purge_flush"
   ],
   "note": "raw_atomic_flush_mark, raw_atomic_flush_do_asynch with all its helpers, the marks of ocf_purge_map_info, reference counting of forwarded commands. The whole lines of a request are together below 4 GiB, since the length of a command has 32 bits; the marks are of a contiguous range, which purge_shape proves of a purge. Marks made one at a time by other callers than a purge are covered by contents as far as they have that shape."
  },
  {
   "property": "C65",
   "status": "proved",
   "theorems": [
    "Verif.CacheVisit.safe",
    "Verif.CacheVisit.visited_alive",
    "Verif.CacheVisit.unlocked",
    "Verif.CacheVisit.returned",
    "Verif.CacheVisit.complete_visit",
    "Verif.CacheVisit.broken_visit",
    "Verif.CacheVisit.once",
    "Verif.CacheVisit.snap_nodup",
    "Verif.CacheVisit.goes_on"
   ],
   "note": "ocf_mngt_cache_visit, ocf_mngt_cache_visit_reverse, _ocf_mngt_cache_get_list_cpy, _ocf_mngt_cache_try_get, ocf_mngt_cache_put. Assumed of others: who stops a cache holds a reference until the cache is off the list, references are put only by who holds them. Getting a reference is one step; the race with freezing is in C10 (Refcnt)."
  },
  {
   "property": "C66",
   "status": "partial",
   "theorems": [
    "Verif.CleanParam.set_ok_iff",
    "Verif.CleanParam.set_effect",
    "Verif.CleanParam.set_fails",
    "Verif.CleanParam.set_errors",
    "Verif.CleanParam.set_kicks",
    "Verif.CleanParam.get_ok_iff",
    "Verif.CleanParam.in_range",
    "Verif.CleanParam.active_exact",
    "Verif.CleanParam.later_exact",
    "Verif.CleanParam.possible_partial",
    "Verif.CleanParam.old_exact_partial",
    "Verif.CleanParam.old_over",
    "Verif.CleanParam.delay_exact",
    "Verif.CleanParam.early_clock"
   ],
   "note": "Partial: the choice of lines holds from when the clock has counted the stale time (early_clock shows that before, a line just written is taken as old); the limit of dirty lines as long as a hundred times their number fits 32 bits; gaps between times below 2^32 units. At the limit, lines written in second 2^32-1 are left out."
  }
 ]
}