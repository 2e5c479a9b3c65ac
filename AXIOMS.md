# Axioms of the theorems claimed in MANIFEST.json

Output of `#print axioms` for each of the 639 theorems, grouped.

## none (9)

CacheVisit.goes_on, CleanParam.early_clock, Discard.refused_keeps_reference, Discard.zero_once_partial, Discard.zero_twice, Mpool.del_matches, SbValidate.probe_ignores_checksum, Space.below_min_race, Stats.reset_underflow

## `Classical.choice`, `Quot.sound`, `propext` (466)

Account.cached_accounts, Account.cached_exact_partial, Account.clean_core_no_dirty_sector, Account.dirty_exact, Account.no_assert, Account.repart_moves, Acp.alloc_failure_asserts, Acp.backoff_inverted, Acp.bucket_matches, Acp.dirty_selectable, Acp.flags_agree, Acp.hidden_after_choose, Acp.load_asserts, Acp.load_hides, Acp.no_assertion, Acp.pass_collects, Acp.pass_exact, Acp.selected_dirtiest, Acp.some_selected, Acp.tenth_selectable, Acp.touched_by, Acp.untouched_rounded_down, Alock.arrival_order, Alock.busy_moves_partial, Alock.exclusive, Alock.no_bug, Alock.no_bug_partial, Alock.no_deadlock_partial, Alock.no_lost_wakeup, Alock.no_overtaking, Alock.readers_wait_for_writer_partial, Alock.resumed_once_partial, Alru.collect_nodup, Alru.collect_oldest, Alru.line_exact, Alru.lists_by_time, Alru.lists_exact, Alru.lists_in_order, Alru.no_assertion, Alru.populate_exact, Alru.purge_removes, Alru.touch_moves, AsyncLock.arrival_order, AsyncLock.completed_once, AsyncLock.free_no_waiters, AsyncLock.mutual_exclusion, AsyncLock.no_bug, AsyncLock.readers_wait_only_for_writer, Bits.apply_exact, Bits.clearBits_exact, Bits.clearDirtySecChanged_summary, Bits.clearValidSecChanged_summary, Bits.run_dirty_imp_valid, Bits.setBits_bug_of_bad_range, Bits.setBits_exact, Bits.setDirtySecChanged_summary, Bits.setValidSecChanged_summary, Bits.testBits_exact, Bits.testOut_exact, CacheStart.misuse_bound, CacheStart.names_unique, CacheStart.no_misuse_partial, CacheStart.start_eq, CacheStart.start_exist, CacheStart.start_fails, CacheStart.start_ok, CacheStart.undo_counter_too_many, CacheStart.undo_lock_late, CacheVisit.broken_visit, CacheVisit.complete_visit, CacheVisit.once, CacheVisit.returned, CacheVisit.safe, CacheVisit.snap_nodup, CacheVisit.unlocked, CacheVisit.visited_alive, CleanParam.delay_exact, CleanParam.in_range, CleanParam.old_exact_partial, CleanParam.possible_partial, CleanParam.set_effect, CleanParam.set_errors, CleanParam.set_fails, CleanParam.set_kicks, CleanParam.set_ok_iff, Cleaner.Done.completes_at_end, Cleaner.Done.completes_once_partial, Cleaner.clean_after_writeback_partial, Cleaner.cleaned_when_finished, Cleaner.error_keeps_dirty_partial, Cleaner.item_at_most_once, Cleaner.item_exactly_once, Cleaner.no_failure, Cleaner.ranges_apart, Cleaner.request_shape, Cleaner.writes_current, Cleaner.written_dirty_partial, Cleaner.written_once, Collision.bucket_frame, Collision.check_exact, Collision.core_exact, Collision.lookup_exact, Collision.lookup_injective, Collision.no_assert, Composite.forwardFlush_all, Composite.forwardIoSimple_exact, Composite.forwardIo_exact, CoreId.ids_distinct, CoreId.newId_exact, CoreMngt.add_error_partial, CoreMngt.add_fine, CoreMngt.add_needs, CoreMngt.add_ok, CoreMngt.attach_error_partial, CoreMngt.attach_fine, CoreMngt.attach_needs, CoreMngt.attach_ok, CoreMngt.counted, CoreMngt.data_has_core_partial, CoreMngt.detach_ok, CoreMngt.detach_start, CoreMngt.device_current_partial, CoreMngt.distinct, CoreMngt.ends_partial, CoreMngt.no_crash_partial, CoreMngt.no_leak_partial, CoreMngt.no_use_freed_partial, CoreMngt.open_ready_partial, CoreMngt.released_partial, CoreMngt.remove_error_partial, CoreMngt.removed_partial, CoreMngt.stopped_clean, Ctx.create_error_partial, Ctx.destroy_pool, Ctx.held_once, Ctx.id_of_null, Ctx.id_of_type, Ctx.library_types_partial, Ctx.lookup_iff, Ctx.mutex_left, Ctx.no_bug, Ctx.no_freed_type_partial, Ctx.nothing_left_partial, Ctx.pool_add, Ctx.pool_count, Ctx.pool_take, Ctx.put_last, Ctx.refs_counted, Ctx.register_does, Ctx.register_ok_iff, Ctx.type_live, Ctx.types_exact_partial, Ctx.unregister_does, Discard.bits_exact, Discard.bits_in_order, Discard.completed_once, Discard.drops_all_partial, Discard.keeps_others, Discard.map_large_enough, Discard.not_stuck, Discard.purge_valid, Discard.references, Discard.reports_errors_partial, Discard.step_decreases, Discard.step_fits, Engine.CrashRace.cache_error_loses_acknowledged_write, Engine.CrashRace.flush_error_loses_acknowledged_write, Engine.CrashRace.purge_loses_acknowledged_write, Engine.DiscardRace.discard_loses_acknowledged_write, Engine.Race.cleaner_overwrites_write_invalidate, Engine.Race.failed_write_loses_older_write, Engine.reads_permitted_after_crashes_no_wi, Engine.reads_permitted_after_crashes_partial, Engine.reads_permitted_no_wb, Engine.reads_permitted_no_wi, Engine.reads_permitted_partial, Evict.locks_exact, Evict.no_assert, Evict.round_robin, Evict.search_exhaustive, Evict.slots_exact, Evict.taken_clean_unused, Evict.taken_once, FlushMngt.cache_flush_clean_partial, FlushMngt.completes_once, FlushMngt.core_flush_clean_partial, FlushMngt.error_has_cause, FlushMngt.error_reported, FlushMngt.no_assert, FlushMngt.portion_bounds, FlushMngt.portion_progress, FlushMngt.purge_removes_clean_partial, Forward.completion_once, Forward.first_error_partial, Generator.calls_perm, Generator.populate_exact, Geometry.cache_io_exact, Geometry.info_exact, Geometry.overlay_exact, Geometry.sectors_exact, Geometry.sequential_sound, HashLock.hashInRange_iff, HashLock.lockOrder_mem, IdxList.op_exact, IdxList.read_exact, IoClass.all_or_nothing_partial, IoClass.config_sane, IoClass.configured_exact, IoClass.first_refused_unchanged, IoClass.success_iff, Layout.attach_bounds, Layout.attach_cases, Layout.attach_no_bug, Layout.attach_ok_iff, Layout.entries_apart, Layout.entry_before_data, Layout.line_inside, Layout.posix_line_inside_partial, Layout.regions_apart, Lru.cache_exact, Lru.cache_progress, Lru.cache_start, Lru.list_exact, Lru.list_frame, Lru.sizes_sum, LruClean.all_returned, LruClean.one_order, LruClean.order_locked, LruClean.runs_again_partial, LruClean.stuck_after_empty_run, LruClean.unlock_held, LruClean.zero_quiet, MetaDev.all_unlocked, MetaDev.durable, MetaDev.durable_later, MetaDev.known, MetaDev.never_older, MetaDev.no_overlap, MetaDev.whole_page, MetaFlush.device_current, MetaFlush.marked_exact, MetaFlush.pages_exact, MetaFlush.refused_never_told, MetaFlush.told, MetaFlush.told_once, MetaFlush.writes_are_runs, MetaIo.at_end, MetaIo.buffer_fits, MetaIo.ends, MetaIo.late_error_never_reported, MetaIo.lock_failure_never_reported, MetaIo.no_page_twice, MetaIo.nothing_after_free, MetaIo.pages_filled_drained, MetaIo.report, MetaIo.reports_once, MetaIo.single_reports, MetaIo.succeeds, MetaLock.access_held, MetaLock.all_finish, MetaLock.all_released, MetaLock.alru_sync_deadlock, MetaLock.never_together, MetaLock.no_deadlock, MetaRaw.checksum_roundtrip, MetaRaw.drain_entry, MetaRaw.dyn_accepted_partial, MetaRaw.dyn_get, MetaRaw.dyn_roundtrip, MetaRaw.dyn_stored, MetaRaw.entry_in_pool, MetaRaw.entry_written, MetaRaw.partial_flush, MetaRaw.roundtrip, MetaRaw.zero_page_rejected, MetaRaw.zeroed, MngtLock.all_told, MngtLock.counted, MngtLock.exclusive, MngtLock.freed_at_end_partial, MngtLock.freed_iff, MngtLock.freed_unowned, MngtLock.leak_forever, MngtLock.lock_alive, MngtLock.never_used_freed, MngtLock.outcome, MngtLock.stopping_why, MngtLock.told_once, MngtLock.trylock_leak, MngtLock.usable, Mode.bypass_pt, Mode.dirty_only_if_allowed_partial, Mode.engine_by_mode, Mode.engine_total, Mode.fast_path_ignores_mode, Mode.resolve_exact, Mode.setMode_legal, Mpool.map_fits, Mpool.new_fits, Mpool.order_exact, Mpool.request_fits, Nhit.admits_exactly, Nhit.admitted_only_after, Nhit.admitted_only_after_threads, Nhit.found_iff_tracked, Nhit.lookup_ends, Nhit.slots_apart, Nhit.tracks_exactly, Parallelize.finish_once, Parallelize.portion_partition, Parallelize.stride_partition, Passive.accepted_iff, Passive.contents, Passive.counted_partial, Passive.ends_once, Passive.error_told, Passive.exclusive, Passive.followed, Passive.plan_exact, Passive.quiet_after, Passive.reference_lost, Passive.serial, Passive.unlocked, Pipeline.finish_exactly_once, PolicySwitch.attached_context, PolicySwitch.call_safe, PolicySwitch.crash_where, PolicySwitch.detached_never_done, PolicySwitch.inside_safe, PolicySwitch.never_skipped, PolicySwitch.not_stuck, PolicySwitch.replacing_alone, PolicySwitch.reports_true, PolicySwitch.strict_context_partial, PolicySwitch.strict_safe_partial, Promo.fatal, Promo.held_exact, Promo.leak_spin, Promo.params_valid, Promo.request_ok, Promo.safe_partial, Promo.setParam_spec, Promo.setPolicy_active, Promo.type_true, Queue.run_stops_empty, QueueLife.all_back_partial, QueueLife.cache_freed_iff, QueueLife.cache_kept, QueueLife.create_fails_partial, QueueLife.create_mngt_spec, QueueLife.create_spec, QueueLife.held_over_stop, QueueLife.linked_partial, QueueLife.mngt_once, QueueLife.no_misuse_partial, QueueLife.put_last, QueueLife.put_more, QueueLife.spins_counted, QueueLife.stale_mngt, QueueLife.stop_once, QueueLife.stop_spec_partial, QueueLife.visit_spec, RawAtomic.at_end, RawAtomic.commands_exact, RawAtomic.complete_due, RawAtomic.complete_once, RawAtomic.contents, RawAtomic.ends, RawAtomic.purge_flush, RawAtomic.purge_shape, RawAtomic.purge_wanted, RbTree.decrease_splits_equal, RbTree.find_iff, RbTree.find_log, RbTree.find_ring, RbTree.update_in_place, Realloc.copy_spec, Realloc.deinit_spec, Realloc.fails_iff, Realloc.frame, Realloc.limit_true, Realloc.no_misuse, Realloc.plain_spec, Realloc.room_partial, Realloc.write_spec, Recovery.accepted, Recovery.counters_exact, Recovery.duplicate_accepted, Recovery.ends, Recovery.keeps_exactly_dirty, Recovery.lists_exact, Recovery.lookup_after, Recovery.no_assert, Recovery.partition_sizes, Recovery.refused_iff_partial, Recovery.step_decreases, Refcnt.callback_at_most_once, Refcnt.callback_runs, Refcnt.fires_when_empty_partial, Refcnt.no_bug, Refcnt.no_entry_when_frozen, ReqRef.ended_once_partial, ReqRef.never_used_freed_partial, ReqRef.not_forgotten_partial, ReqRef.nothing_left_partial, SbValidate.crc_mismatch_iff, SbValidate.inval_iff, SbValidate.load_no_assert, SbValidate.load_ok, SbValidate.metadata_ver_iff, SbValidate.probe_status, SbValidate.properties_ok_iff, SbValidate.validateCores_iff, SbValidate.validate_ok_iff, SeqCutoff.check_exact_partial, SeqCutoff.core_exact, SeqCutoff.cutoff_sound, SeqCutoff.never_stuck, SeqCutoff.order_restored, SeqCutoff.reachable_fits, SeqCutoff.stream_cut_off, Space.all_or_nothing, Space.eligible_exact, Space.max_respected, Space.min_respected, Space.min_respected_serial, Space.own_class_only, Space.priority_order, Space.sources_ordered, Stats.blocks_round_up, Stats.collected_between, Stats.counters_exact, Stats.kind_exact, Stats.misses_le_total, Stats.report_consistent_partial, Stats.report_exact, Submit.crash_zeros, Submit.failure_means, Submit.page_read, Submit.parts_cover, Submit.parts_in, Submit.report_once, Submit.stuck_over, Submit.success_means, Submit.zeros_never, Superblock.completed_save_loads, Superblock.load_succeeds, Volume.attach_does, Volume.attach_unclosed, Volume.closed_first_partial, Volume.deinit_hook, Volume.frees_allocated_partial, Volume.hook_iff, Volume.init_does, Volume.init_fails, Volume.io_accepted_partial, Volume.io_open, Volume.io_refused, Volume.load_does, Volume.load_loses, Volume.memory_exact, Volume.no_bug_partial, Volume.nothing_left, Volume.open_ok_iff, Volume.pool_core_stuck, Volume.uuid_memory_partial

## `Quot.sound` (1)

Lru.fill_none

## `Quot.sound`, `propext` (116)

Account.cached_drifts, Account.cached_negative, Acp.last_shard_skipped, Acp.touched_stays, Alock.lock_leaked, Bits.testAndClear_exact, Bits.testAndSet_exact, CleanParam.active_exact, CleanParam.later_exact, Cleaner.bits_change_logged, Cleaner.clean_sectors_rewritten, Cleaner.lost_error_cleans, Composite.forwardIo_out_of_range, Composite.forwardLoop_in_member, CoreMngt.load_error_partial, CoreMngt.load_fine, CoreMngt.load_needs, CoreMngt.load_ok, Ctx.create_ok, Ctx.id_none, Ctx.visit_does, Discard.purge_mapped, Evict.log_sound, Evict.no_list_lock, FlushMngt.early_completion_asserts, Forward.reported_error_real, Generator.populate_undefined, Geometry.lines_exact, HashLock.lockOrder_ascending, HashLock.no_deadlock, IoClass.init_succeeds, IoClass.rejected_unchanged, IoClass.rollback_lost, Layout.lines_apart, Layout.posix_overlap, MetaDev.untouched, MetaFlush.device_only_memory, MetaFlush.not_stuck, MetaFlush.told_before, MetaLock.run_bounded, MetaRaw.copy_place, MetaRaw.dyn_load_succeeds, MngtLock.unlock_after_destroy, Mode.fallback_sticky, Mpool.alockSize_fits, Nhit.buckets_pos, Nhit.locks_ordered, Nhit.queue_nodup, Nhit.request_decision, Nhit.tracked_twice, Passive.empty_write_copies_all, Passive.error_device, Passive.error_kept, Passive.frozen_refused, Passive.let_through, Passive.own_lock, Passive.tail_not_refused, Pipeline.pipeline_refines, PolicySwitch.load_failure_leaves, PolicySwitch.old_steps_end, PolicySwitch.populate_failure_leaves, Promo.get_after_set, Queue.fifo_per_priority, Queue.high_first, Queue.run_exactly_once, QueueLife.get_spec, RawAtomic.commands_kind, RawAtomic.merged, RawAtomic.no_memory, RbTree.example_run, Realloc.overflow_lies, ReqAlloc.all_returned_partial, ReqAlloc.attach_never_finishes, ReqAlloc.bug_only_race, ReqAlloc.cleaner_result, ReqAlloc.counted, ReqAlloc.d2c_leak, ReqAlloc.failed_keeps, ReqAlloc.new_in_attach_bug, ReqRef.d2c_discard_used_freed, ReqRef.d2c_flush_used_freed, ReqRef.discard_no_memory_leaks, ReqRef.discard_used_freed, ReqRef.resumed, SbValidate.load_error_of_invalid, SbValidate.load_fail_restores, SbValidate.uuid_not_restored, SeqCutoff.other_core_continues, SeqCutoff.promotion_loses_streams, SeqCutoff.tie_ignores_longer, Stats.cache_usage, Stats.core_usage, Stats.pair_adds_up, Stats.part_usage, Stats.requests_add_up, Submit.alive, Submit.no_memory, Submit.page_written, Submit.parts_aligned, Submit.reports_partial, Submit.run_bounded, Submit.single_part, Superblock.loads_old_or_new, Superblock.two_configurations, Volume.add_iff, Volume.anon_deinit, Volume.close_ends, Volume.comp_close, Volume.comp_open_does, Volume.comp_open_fails, Volume.comp_open_iff, Volume.comp_visit, Volume.init_ok_iff, Volume.members_max, Volume.pool_io_bug, Volume.renamed_frees

## `propext` (47)

Alru.dirty_ratio_exact, Alru.dirty_ratio_overflow, CleanParam.get_ok_iff, CleanParam.old_over, Cleaner.Done.completes_early, Cleaner.Done.completes_twice, CoreMngt.add_error_on_device, CoreMngt.attach_error_crash, CoreMngt.attach_error_opens, CoreMngt.inactive_front_leaks, CoreMngt.inactive_front_left, CoreMngt.load_error_leaks, CoreMngt.remove_busy_uses_freed, CoreMngt.remove_error_drops_data, CoreMngt.remove_error_removed, Ctx.create_ok_iff, Ctx.freed_type_used, Ctx.library_type_lost, Ctx.register_fails, Ctx.type_left, Discard.after_done, Discard.flush_error_ignored, Discard.lock_error_ignored, Discard.recached, Forward.error_lost, Layout.posix_overwrites_metadata, LruClean.frozen_closed, MetaRaw.count_drifts, MetaRaw.written_only, PolicySwitch.detached_crashes, Promo.attach_defaults, Promo.ring_lost, QueueLife.cache_refs_spec, QueueLife.create_loses, RawAtomic.mark_other, RawAtomic.mark_records, Refcnt.fires_with_user_inside, ReqRef.leak_stays, SbValidate.no_metadata_iff, SeqCutoff.check_cut_off, SeqCutoff.isOn_iff, SeqCutoff.policy_iff, SeqCutoff.policy_off, Stats.usage_underflow, Submit.page_error_overwrites, Superblock.both_lost, Volume.close_waits
