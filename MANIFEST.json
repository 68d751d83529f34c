{
 "claims": [
  {
   "property": "C01",
   "status": "proved",
   "theorems": [
    "RedFs.Props.System.C01_every_history_refines",
    "RedFs.Props.System.C01_power_loss",
    "RedFs.Props.System.C01_power_loss_idle",
    "RedFs.Props.System.C01_power_loss_after_call",
    "RedFs.Props.System.C01_committed_state",
    "RedFs.Props.Crash.C01_crash_recovers_committed",
    "RedFs.Props.Crash.C01_crash_between_transactions"
   ],
   "note": "whole core API, every history of calls, power losses and formats"
  },
  {
   "property": "C02",
   "status": "proved",
   "theorems": [
    "RedFs.Props.System.C02_committed_blocks_kept",
    "RedFs.Props.System.C02_committed_blocks",
    "RedFs.Props.Crash.C02_committed_never_overwritten"
   ],
   "note": ""
  },
  {
   "property": "C03",
   "status": "proved",
   "theorems": [
    "RedFs.Props.System.C03_transact_durable",
    "RedFs.Props.System.C03_durable_forever",
    "RedFs.Props.Crash.C03_transact_durable"
   ],
   "note": ""
  },
  {
   "property": "C04",
   "status": "proved",
   "theorems": [
    "RedFs.Props.System.C04_rollback",
    "RedFs.Props.System.C04_rollback_after_anything",
    "RedFs.Props.Crash.C04_rollback_exact",
    "RedFs.Props.Crash.C04_rollback_after_transact"
   ],
   "note": ""
  },
  {
   "property": "C05",
   "status": "proved",
   "theorems": [
    "RedFs.Props.Format.C05_format_succeeds",
    "RedFs.Props.Format.C05_format_mounted",
    "RedFs.Props.Format.C05_interrupted_format",
    "RedFs.Props.Format.C05_interrupted_reformat",
    "RedFs.Props.Format.C05_format_overcounts"
   ],
   "note": "the last is the witness for finding 10 (format does not reset the count of almost-free blocks)"
  },
  {
   "property": "C06",
   "status": "proved",
   "theorems": [
    "RedFs.Props.Crash.C06_mount_selects_newest",
    "RedFs.Props.Crash.C06_mount_fails_clean"
   ],
   "note": ""
  },
  {
   "property": "C07",
   "status": "proved",
   "theorems": [
    "RedFs.Props.Crc.C07_burst_detected",
    "RedFs.Props.Buffer.C07_damaged_node_rejected",
    "RedFs.Props.Buffer.C07_accepted_node_is_valid",
    "RedFs.Props.Buffer.C07_damage_detected"
   ],
   "note": "byte-level model of the buffer cache"
  },
  {
   "property": "C08",
   "status": "proved",
   "theorems": [
    "RedFs.Props.Crc.C08_crc_builds_agree"
   ],
   "note": "all three builds, tables included"
  },
  {
   "property": "C09",
   "status": "proved",
   "theorems": [
    "RedFs.Props.Crc.C09_crc_append"
   ],
   "note": "any split point"
  },
  {
   "property": "C10",
   "status": "proved",
   "theorems": [
    "RedFs.Props.Files.C10_contents",
    "RedFs.Props.Files.C10_read",
    "RedFs.Props.Files.C10_stat_size"
   ],
   "note": "every sequence of calls, successful or not"
  },
  {
   "property": "C11",
   "status": "proved",
   "theorems": [
    "RedFs.Props.Files.C11_other_files"
   ],
   "note": ""
  },
  {
   "property": "C12",
   "status": "proved",
   "theorems": [
    "RedFs.Props.Files.C12_after_truncate",
    "RedFs.Props.Files.C12_behind_end"
   ],
   "note": ""
  },
  {
   "property": "C13",
   "status": "proved",
   "theorems": [
    "RedFs.Props.Files.C13_prefix",
    "RedFs.Props.Files.C13_failed_write"
   ],
   "note": ""
  },
  {
   "property": "C14",
   "status": "proved",
   "theorems": [
    "RedFs.Props.Account.C14_free_blocks_exact",
    "RedFs.Props.Account.C14_statvfs",
    "RedFs.Props.Account.C14_no_block_twice",
    "RedFs.Props.Account.C14_transaction_frees_all",
    "RedFs.Props.Space.C14_alloc",
    "RedFs.Props.Space.C14_free",
    "RedFs.Props.Space.C14_transact",
    "RedFs.Props.Space.C14_rollback",
    "RedFs.Props.Space.C14_no_leak"
   ],
   "note": "on every reachable volume; a format over a volume with pending frees is excluded (finding 10, witness C05_format_overcounts)"
  },
  {
   "property": "C15",
   "status": "proved",
   "theorems": [
    "RedFs.Props.Space.C15_alloc_only_free"
   ],
   "note": "both imap forms"
  },
  {
   "property": "C16",
   "status": "proved",
   "theorems": [
    "RedFs.Props.Space.C16_alloc_complete"
   ],
   "note": "both imap forms, includes termination of the search"
  },
  {
   "property": "C17",
   "status": "proved",
   "theorems": [
    "RedFs.Props.Policy.C17_shrink_after_transaction",
    "RedFs.Props.Policy.C17_shrink_with_volfull"
   ],
   "note": "POSIX builds with unlink/truncate; the reserve is proved to suffice on every reachable volume"
  },
  {
   "property": "C18",
   "status": "proved",
   "theorems": [
    "RedFs.Props.Policy.C18_retry_policy",
    "RedFs.Props.Policy.C18_no_hidden_transaction",
    "RedFs.Props.Policy.C18_at_most_one"
   ],
   "note": ""
  },
  {
   "property": "C19",
   "status": "proved",
   "theorems": [
    "RedFs.Props.Names.C19_is_map",
    "RedFs.Props.Names.C19_names",
    "RedFs.Props.Names.C19_lookup"
   ],
   "note": "every sequence of calls"
  },
  {
   "property": "C20",
   "status": "proved",
   "theorems": [
    "RedFs.Props.Names.C20_readdir"
   ],
   "note": ""
  },
  {
   "property": "C21",
   "status": "proved",
   "theorems": [
    "RedFs.Props.Names.C21_legal",
    "RedFs.Props.Names.C21_unique",
    "RedFs.Props.Names.C21_rejected"
   ],
   "note": ""
  },
  {
   "property": "C22",
   "status": "proved",
   "theorems": [
    "RedFs.Props.Names.C22_connected",
    "RedFs.Props.Names.C22_acyclic",
    "RedFs.Props.Names.C22_every_file_has_a_path",
    "RedFs.Props.Names.C22_rename_below_itself"
   ],
   "note": ""
  },
  {
   "property": "C23",
   "status": "proved",
   "theorems": [
    "RedFs.Props.Names.C23_link_count",
    "RedFs.Props.Names.C23_in_use_iff_named",
    "RedFs.Props.Names.C23_unlink",
    "RedFs.Props.Names.C23_emlink"
   ],
   "note": ""
  },
  {
   "property": "C24",
   "status": "proved",
   "theorems": [
    "RedFs.Props.Names.C24_failed",
    "RedFs.Props.Names.C24_names",
    "RedFs.Props.Names.C24_files"
   ],
   "note": ""
  },
  {
   "property": "C25",
   "status": "proved",
   "theorems": [
    "RedFs.Props.Policy.C25_modifying_calls",
    "RedFs.Props.Policy.C25_no_call_writes",
    "RedFs.Props.Policy.C25_unmount_writes_nothing",
    "RedFs.Props.Policy.C25_session"
   ],
   "note": ""
  },
  {
   "property": "C26",
   "status": "proved",
   "theorems": [
    "RedFs.Props.Policy.C26_not_mounted"
   ],
   "note": ""
  },
  {
   "property": "C27",
   "status": "proved",
   "theorems": [
    "RedFs.Props.Buffer.C27_get_returns_last_contents",
    "RedFs.Props.Buffer.C27_get_succeeds",
    "RedFs.Props.Buffer.C27_no_duplicates",
    "RedFs.Props.Buffer.C27_not_lost",
    "RedFs.Props.Buffer.C27_flush_writes_everything"
   ],
   "note": "every history of cache operations, every device behaviour"
  },
  {
   "property": "C28",
   "status": "proved",
   "theorems": [
    "RedFs.Props.Buffer.C28_referenced_buffer_is_stable",
    "RedFs.Props.Buffer.C28_busy_iff_all_referenced",
    "RedFs.Props.Buffer.C28_get_takes_free_buffer",
    "RedFs.Props.Buffer.C28_discard_refuses_referenced"
   ],
   "note": ""
  },
  {
   "property": "C29",
   "status": "proved",
   "theorems": [
    "RedFs.Props.PosixFd.C29_range",
    "RedFs.Props.PosixFd.C29_distinct",
    "RedFs.Props.PosixFd.C29_stays_open",
    "RedFs.Props.PosixFd.C29_open",
    "RedFs.Props.PosixFd.C29_ebadf",
    "RedFs.Props.PosixFd.C29_close",
    "RedFs.Props.PosixFd.C29_earlier_mount",
    "RedFs.Props.PosixFd.C29_stays_closed"
   ],
   "note": "every history of POSIX calls"
  },
  {
   "property": "C30",
   "status": "proved",
   "theorems": [
    "RedFs.Props.PosixUse.C30_open_exists",
    "RedFs.Props.PosixUse.C30_cwd_exists",
    "RedFs.Props.PosixUse.C30_same_file",
    "RedFs.Props.PosixUse.C30_unlink",
    "RedFs.Props.PosixUse.C30_rename",
    "RedFs.Props.PosixUse.C30_umount"
   ],
   "note": "every history of POSIX calls"
  },
  {
   "property": "C31",
   "status": "proved",
   "theorems": [
    "RedFs.Props.PosixIo.C31_offset_range",
    "RedFs.Props.PosixIo.C31_only_own_calls",
    "RedFs.Props.PosixIo.C31_read",
    "RedFs.Props.PosixIo.C31_write",
    "RedFs.Props.PosixIo.C31_lseek",
    "RedFs.Props.PosixIo.C31_whence"
   ],
   "note": ""
  },
  {
   "property": "C32",
   "status": "proved",
   "theorems": [
    "RedFs.Props.PosixIo.C32_rejected",
    "RedFs.Props.PosixIo.C32_opened",
    "RedFs.Props.PosixIo.C32_kept",
    "RedFs.Props.PosixIo.C32_accepted",
    "RedFs.Props.PosixIo.C32_accepted_creat",
    "RedFs.Props.PosixIo.C32_read_refused",
    "RedFs.Props.PosixIo.C32_write_refused"
   ],
   "note": ""
  },
  {
   "property": "C33",
   "status": "proved",
   "theorems": [
    "RedFs.Props.PosixNames.C33_split",
    "RedFs.Props.PosixNames.C33_split_nil",
    "RedFs.Props.PosixNames.C33_split_name",
    "RedFs.Props.PosixNames.C33_separators",
    "RedFs.Props.PosixNames.C33_one_result",
    "RedFs.Props.PosixNames.C33_walk_append",
    "RedFs.Props.PosixNames.C33_spelling",
    "RedFs.Props.PosixNames.C33_mkdir",
    "RedFs.Props.PosixNames.C33_unlink",
    "RedFs.Props.PosixNames.C33_link",
    "RedFs.Props.PosixNames.C33_open",
    "RedFs.Props.PosixNames.C33_open_error",
    "RedFs.Props.PosixNames.C33_chdir"
   ],
   "note": ""
  },
  {
   "property": "C34",
   "status": "proved",
   "theorems": [
    "RedFs.Props.PosixNames.C34_unique",
    "RedFs.Props.PosixNames.C34_exists",
    "RedFs.Props.PosixNames.C34_absolute",
    "RedFs.Props.PosixNames.C34_enoent",
    "RedFs.Props.PosixNames.C34_other_volumes",
    "RedFs.Props.PosixNames.C34_exdev",
    "RedFs.Props.PosixNames.C34_volume_calls"
   ],
   "note": ""
  },
  {
   "property": "C35",
   "status": "proved",
   "theorems": [
    "RedFs.Props.Util.C35_rev16_bytes",
    "RedFs.Props.Util.C35_rev32_bytes",
    "RedFs.Props.Util.C35_rev64_bytes",
    "RedFs.Props.Util.C35_rev16_invol",
    "RedFs.Props.Util.C35_rev32_invol",
    "RedFs.Props.Util.C35_rev64_invol",
    "RedFs.Props.Util.C35_portable16",
    "RedFs.Props.Util.C35_portable32",
    "RedFs.Props.Util.C35_portable64"
   ],
   "note": "field level: every multi-byte field goes through these three functions"
  },
  {
   "property": "C36",
   "status": "proved",
   "theorems": [
    "RedFs.Props.Geometry.C36_role_inside",
    "RedFs.Props.Geometry.C36_roles_disjoint",
    "RedFs.Props.Geometry.C36_roles_cover",
    "RedFs.Props.Geometry.C36_driver_blocks",
    "RedFs.Props.Geometry.C36_bitmaps_large_enough",
    "RedFs.Props.Geometry.C36_accepted_geometry",
    "RedFs.Props.Geometry.C36_inode_count_wraps",
    "RedFs.Props.Geometry.C36_imap_nodes_exceed_metaroot"
   ],
   "note": "the last two are witnesses for configurations the code accepts although the layout is unsound (DESIGN.md findings 7, 8)"
  },
  {
   "property": "C37",
   "status": "proved",
   "theorems": [
    "RedFs.Props.BlockIo.C37_block_io",
    "RedFs.Props.BlockIo.C37_blocks_disjoint",
    "RedFs.Props.BlockIo.C37_flush_retries",
    "RedFs.Props.BlockIo.C37_retries_255_hangs"
   ],
   "note": "the last is the witness for the excluded retry count 255 (finding 12)"
  },
  {
   "property": "C38",
   "status": "proved",
   "theorems": [
    "RedFs.Props.Util.C38_set",
    "RedFs.Props.Util.C38_clear",
    "RedFs.Props.Util.C38_order",
    "RedFs.Props.Util.C38_bytes"
   ],
   "note": ""
  },
  {
   "property": "C39",
   "status": "proved",
   "theorems": [
    "RedFs.Props.Util.C39_memMove",
    "RedFs.Props.Util.C39_memCpy",
    "RedFs.Props.Util.C39_memSet",
    "RedFs.Props.Util.C39_memCmp_zero",
    "RedFs.Props.Util.C39_memCmp_sign",
    "RedFs.Props.Util.C39_strLen",
    "RedFs.Props.Util.C39_strCmp",
    "RedFs.Props.Util.C39_strNCmp",
    "RedFs.Props.Util.C39_strNCpy",
    "RedFs.Props.Util.C39_nameLen"
   ],
   "note": ""
  },
  {
   "property": "C40",
   "status": "proved",
   "theorems": [
    "RedFs.Props.Account.C40_lowest_free_inode",
    "RedFs.Props.Account.C40_enfile",
    "RedFs.Props.Account.C40_free_inodes"
   ],
   "note": ""
  },
  {
   "property": "C41",
   "status": "proved",
   "theorems": [
    "RedFs.Props.Account.C41_one_copy",
    "RedFs.Props.Account.C41_changed_copy_elsewhere",
    "RedFs.Props.Account.C41_committed_copy_untouched",
    "RedFs.Props.Account.C41_branch"
   ],
   "note": ""
  },
  {
   "property": "C42",
   "status": "proved",
   "theorems": [
    "RedFs.Props.Policy.C42_event_commits",
    "RedFs.Props.Policy.C42_unmount",
    "RedFs.Props.Policy.C42_queries_never_commit",
    "RedFs.Props.Policy.C42_mask_set",
    "RedFs.Props.Policy.C42_mask_kept"
   ],
   "note": "a transaction with nothing to commit is not counted"
  },
  {
   "property": "C43",
   "status": "proved",
   "theorems": [
    "RedFs.Props.PosixTask.C43_linearizable",
    "RedFs.Props.PosixTask.C43_exclusive",
    "RedFs.Props.PosixTask.C43_errno",
    "RedFs.Props.PosixTask.C43_slots_distinct",
    "RedFs.Props.PosixTask.C43_too_many",
    "RedFs.Props.PosixTask.C43_gets_slot",
    "RedFs.Props.PosixTask.C43_errno_own",
    "RedFs.Props.PosixTask.C43_errno_stored",
    "RedFs.Props.PosixTask.C43_enough_slots"
   ],
   "note": "Any number of tasks, any schedule, any division of the critical sections into steps; linearizability against the sequential API. red_init and red_uninit are not called concurrently; the mutex is assumed to work; the global errno of unregistered tasks is excluded."
  },
  {
   "property": "C44",
   "status": "proved",
   "theorems": [
    "RedFs.Props.Files.C44_size_le",
    "RedFs.Props.Files.C44_write_efbig",
    "RedFs.Props.Files.C44_write_clipped",
    "RedFs.Props.Files.C44_truncate_efbig",
    "RedFs.Props.Files.C44_addressable",
    "RedFs.Props.Files.C44_distinct"
   ],
   "note": ""
  },
  {
   "property": "C45",
   "status": "proved",
   "theorems": [
    "RedFs.Fse.C45_fse_refines",
    "RedFs.Fse.C45_isolated",
    "RedFs.Fse.C45_write_read",
    "RedFs.Fse.C45_files",
    "RedFs.Fse.C45_power_loss"
   ],
   "note": "Trace refinement of fse.c (on the model of the core) to Spec/Fse: every history of calls, results and power losses. Format is excluded where finding 10 applies."
  },
  {
   "property": "C46",
   "status": "proved",
   "theorems": [
    "RedFs.Props.PosixCrash.C46_power_loss",
    "RedFs.Props.PosixCrash.C46_power_loss_idle"
   ],
   "note": "Every reachable state, every permitted call but red_format (a crash during a format: C05), every crash image of every epoch of device writes the call makes."
  },
  {
   "property": "C47",
   "status": "proved",
   "theorems": [
    "RedFs.Props.Buffer.C47_only_marked_blocks_change",
    "RedFs.Props.Buffer.C47_flush_begins_epoch",
    "RedFs.Props.Buffer.C47_power_loss"
   ],
   "note": "On the model of buffer.c, device failures included; it discharges, for the cache, the assumption behind the crash images of the volume layer."
  },
  {
   "property": "C48",
   "status": "proved",
   "theorems": [
    "RedFs.Props.Swap.C48_same_bytes",
    "RedFs.Props.Swap.C48_read_back",
    "RedFs.Props.Swap.C48_buffer_kept",
    "RedFs.Props.Swap.C48_same_verdict",
    "RedFs.Props.Swap.C48_other_order",
    "RedFs.Props.Swap.C48_metaroot_same_bytes",
    "RedFs.Props.Swap.C48_metaroot_read_back",
    "RedFs.Props.Swap.C48_metaroot_other_order",
    "RedFs.Props.Swap.C48_metaroot_kept",
    "RedFs.Props.Swap.C48_dirent",
    "RedFs.Props.Swap.C48_failed_flush_leaves_swapped"
   ],
   "note": "The last theorem is a finding: after a failed flush a swapping build keeps the metaroot in memory swapped."
  },
  {
   "property": "C49",
   "status": "proved",
   "theorems": [
    "RedFs.Props.PosixDurable.C49_never_lost",
    "RedFs.Props.PosixDurable.C49_flush",
    "RedFs.Props.PosixDurable.C49_umount",
    "RedFs.Props.PosixDurable.C49_event",
    "RedFs.Props.PosixDurable.C49_durable"
   ],
   "note": "Power losses while another volume is being formatted are left out (C05 is about that volume); everything else is covered."
  },
  {
   "property": "C50",
   "status": "proved",
   "theorems": [
    "RedFs.Props.PosixErr.C50_documented",
    "RedFs.Props.PosixErr.C50_never",
    "RedFs.Props.PosixErr.C50_read_only",
    "RedFs.Props.PosixErr.C50_undocumented"
   ],
   "note": "Device failures (EIO) are outside this layer; the exceptions are finding 23."
  },
  {
   "property": "C51",
   "status": "proved",
   "theorems": [
    "RedFs.Props.PosixFail.C51_unaltered",
    "RedFs.Props.PosixFail.C51_append_moves"
   ],
   "note": "Device failures are outside this layer. The second theorem shows that the exception about appending occurs (finding 20)."
  },
  {
   "property": "C52",
   "status": "proved",
   "theorems": [
    "RedFs.Props.PosixCwd.C52_getcwd",
    "RedFs.Props.PosixCwd.C52_not_mounted",
    "RedFs.Props.PosixCwd.C52_chdir_back",
    "RedFs.Props.PosixCwd.C52_getcwd_back",
    "RedFs.Props.PosixCwd.C52_one_volume",
    "RedFs.Props.PosixCwd.C52_shadowed"
   ],
   "note": "C52_shadowed is the counterexample without the proviso (finding 24)."
  },
  {
   "property": "C53",
   "status": "proved",
   "theorems": [
    "RedFs.Props.Fault.C53_no_fault",
    "RedFs.Props.Fault.C53_fails",
    "RedFs.Props.Fault.C53_power_loss",
    "RedFs.Props.Fault.C53_read_only",
    "RedFs.Props.Fault.C53_readable",
    "RedFs.Props.Fault.C53_remount",
    "RedFs.Props.Fault.C53_used_again"
   ],
   "note": "C53_used_again is a concrete history showing that C53_remount does not extend to using the volume again after it was remounted without a power loss (finding 25). Errors of other device operations are not modelled."
  },
  {
   "property": "C54",
   "status": "proved",
   "theorems": [
    "RedFs.Props.Device.C54_orderly",
    "RedFs.Props.Device.C54_only_its_sectors",
    "RedFs.Props.Device.C54_volumes_apart",
    "RedFs.Props.Device.C54_access",
    "RedFs.Props.Device.C54_open",
    "RedFs.Props.Device.C54_size",
    "RedFs.Props.Device.C54_partly_auto"
   ],
   "note": "C54_partly_auto shows where the code departs from include/redvolume.h and include/redmacs.h (finding 26). The list of blocks the driver asks for is arbitrary, except that mounting only reads and that a read-only volume is only read (proved of the driver in C25)."
  },
  {
   "property": "C55",
   "status": "proved",
   "theorems": [
    "RedFs.Props.Blocks.C55_blocks",
    "RedFs.Props.Blocks.C55_new_file",
    "RedFs.Props.Blocks.C55_failed_call",
    "RedFs.Props.Blocks.C55_extend",
    "RedFs.Props.Blocks.C55_bounds"
   ],
   "note": "The history specification (Spec/Blocks.lean) mentions only calls and their results. Directories are covered by C55_bounds."
  },
  {
   "property": "C56",
   "status": "proved",
   "theorems": [
    "RedFs.Props.SpaceUse.C56_write_completes",
    "RedFs.Props.SpaceUse.C56_extend_completes",
    "RedFs.Props.SpaceUse.C56_volfull",
    "RedFs.Props.SpaceUse.C56_short_count_with_volfull"
   ],
   "note": "C56_short_count_with_volfull is the negative part, with a concrete reachable state (finding 27)."
  },
  {
   "property": "C57",
   "status": "proved",
   "theorems": [
    "RedFs.Props.Entries.C57_no_space",
    "RedFs.Props.Entries.C57_volfull",
    "RedFs.Props.Entries.C57_create_completes",
    "RedFs.Props.Entries.C57_link_completes",
    "RedFs.Props.Entries.C57_rename_completes"
   ],
   "note": "The bounds six and nine hold for every configuration (three tree levels); they are upper bounds and not exact for small trees."
  },
  {
   "property": "C58",
   "status": "proved",
   "theorems": [
    "RedFs.Props.Image.C58_files",
    "RedFs.Props.Image.C58_committed",
    "RedFs.Props.Image.C58_data"
   ],
   "note": "Ties the typed blocks of the main model to the byte-level model of C48: an image is made of what BufferFinalize and RedVolTransact write for each block of the committed state; nothing is assumed of other blocks. Metaroot numbers below 2^64. The sequence numbers of the nodes of a state are taken to be at most that of its metaroot (they are written before it). The master block is not part of the image. Directory entries are little-endian in the model, so for a big-endian device the contents part is about regular files (C48_dirent covers the entries)."
  },
  {
   "property": "C59",
   "status": "proved",
   "theorems": [
    "RedFs.Props.Io.C59_no_fault",
    "RedFs.Props.Io.C59_fails",
    "RedFs.Props.Io.C59_power_loss",
    "RedFs.Props.Io.C59_read_only",
    "RedFs.Props.Io.C59_quiet",
    "RedFs.Props.Io.C59_remount",
    "RedFs.Props.Io.C59_every_history",
    "RedFs.Props.Io.C59_history_power_loss",
    "RedFs.Props.Io.C59_roomy",
    "RedFs.Props.Io.C59_orphan"
   ],
   "note": "The file and directory layers are modelled a second time with every RedBufferGet, RedBufferFlushRange and RedIoRead/Write as an operation that may fail. C59_fails, C59_power_loss and C59_remount are for errors outside commits (Dev.Commits); errors during commits are C53 and are included in the histories (mode torn). Hypothesis Roomy: the attempt to create a file does not run out of space with volume-full transactions enabled; C59_orphan shows that the property is false without it (finding 28), C59_roomy when it is met. After an error in a commit the volume is not unmounted but restarted (finding 25). Formatting is on a device that works (C54 covers its errors)."
  },
  {
   "property": "C60",
   "status": "proved",
   "theorems": [
    "RedFs.Props.Refs.C60_never_short",
    "RedFs.Props.Refs.C60_no_call_is_busy",
    "RedFs.Props.Refs.C60_all_given_back",
    "RedFs.Props.Refs.C60_no_dangling",
    "RedFs.Props.Refs.C60_free_buffer",
    "RedFs.Props.Refs.C60_bound_is_reached",
    "RedFs.Props.Refs.C60_one_less_is_short",
    "RedFs.Props.Refs.C60_rename_bad_parent"
   ],
   "note": "The model keeps the control flow and the buffer pointers of every function that takes or gives back buffers and replaces every decision that depends on data by the next element of an arbitrary list, so the theorems cover every execution of the code (and more). It counts references, which is at least the number of buffers in use; C60_free_buffer connects this to the cache of C27/C28. Hypothesis of the histories: the source parent of a rename is an inode number in the valid range; C60_rename_bad_parent shows what happens otherwise (finding 29)."
  },
  {
   "property": "C61",
   "status": "proved",
   "theorems": [
    "C61_constants",
    "C61_directory_constants",
    "C61_read",
    "C61_write",
    "C61_whole_blocks",
    "C61_read_blocks",
    "C61_write_blocks",
    "C61_seek",
    "C61_coordinates_differ",
    "C61_truncate_first",
    "C61_truncate_indirect",
    "C61_truncate_double",
    "C61_truncate_limits",
    "C61_entry_offset",
    "C61_entry_count",
    "C61_entry_trim",
    "C61_inode_place",
    "C61_imap_place"
   ],
   "note": "Model/Words writes the computations with bit vectors of the widths of the code, wrapping, casts, shifts and masks included, and the constants as words too; RedInodeDataRead and RedInodeDataWrite are written out as whole functions and shown equal to the functions of the core model, the other computations as functions of their arguments. The truncating functions are written with words as whole in C65 and the directory loops in C64; ReadAligned, WriteAligned and GetExtent, whose runs meet the bound by C61_whole_blocks, in C61_read_blocks and C61_write_blocks. Physical block numbers are compared as unbounded numbers there."
  },
  {
   "property": "C62",
   "status": "proved",
   "theorems": [
    "C62_same_calls",
    "C62_no_complaint",
    "C62_stamps",
    "C62_same_reading",
    "C62_failed",
    "C62_commit",
    "C62_auto",
    "C62_rollback",
    "C62_remount",
    "C62_stat",
    "C62_order",
    "C62_replaced"
   ],
   "note": "Model/Times writes the calls of core.c again with every RedInodePut and its flags, on a state with the stamps of all inodes of the working and of the committed state; erasing the stamps gives the core model (C62_same_calls). The specification (Spec/Times) says in terms of the files before the call which stamps it updates. C62_replaced is finding 30. Power loss and device errors are not part of this model. Stamps of 64 bits as unbounded numbers."
  },
  {
   "property": "C63",
   "status": "proved",
   "theorems": [
    "C63_independent",
    "C63_untouched",
    "C63_history",
    "C63_one_volume"
   ],
   "note": "Which volume a call is about is said in Spec/PosixOwn from the path prefixes, descriptors and working directories. The other volume is replaced by an arbitrary state (noninterference), so the theorem covers states no history reaches. red_sync and red_uninit are about all volumes; that they treat each correctly is C46 and C29. The block buffer shared by the volumes is C27's."
  },
  {
   "property": "C64",
   "status": "proved",
   "theorems": [
    "C64_lookup",
    "C64_read",
    "C64_delete",
    "C64_delete_wellformed",
    "C64_lookup_ends",
    "C64_read_ends",
    "C64_delete_ends",
    "C64_read_hangs",
    "C64_lookup_hangs",
    "C64_lookup_unset",
    "C64_hangs_witness"
   ],
   "note": "The 32-bit loops take a bound on the number of blocks looked at and return `hang` when it is reached; that no bound suffices is what C64_*_hangs say. The index inside one block is a natural number. The claim that every call ends fails for a damaged image: findings 3 and 31."
  },
  {
   "property": "C65",
   "status": "proved",
   "theorems": [
    "C65_truncate",
    "C65_fresh",
    "C65_seek_keeps"
   ],
   "note": "C65_fresh and C65_seek_keeps show that the position hypothesis is met by inodes as they are mounted and after seeks. Physical block numbers, which are copied and compared only, are unbounded numbers on both sides."
  },
  {
   "property": "C66",
   "status": "proved",
   "theorems": [
    "C66_documented",
    "C66_device",
    "C66_every_history",
    "C66_never",
    "C66_undocumented",
    "C66_empty_name"
   ],
   "note": "C66_device has the hypothesis Roomy of C59 (finding 28). What a volume answers on which the device has failed is not covered, except for calls that do not look at files."
  }
 ]
}