R='RedFs.Props.'
c('C08','proved',['RedFs.Props.Crc.C08_crc_builds_agree'],'all three builds, tables included')
c('C09','proved',['RedFs.Props.Crc.C09_crc_append'],'any split point')
B='RedFs.Props.Buffer.'
c('C07','proved',['RedFs.Props.Crc.C07_burst_detected']+[B+x for x in 'C07_damaged_node_rejected C07_accepted_node_is_valid C07_damage_detected'.split()],'byte-level model of the buffer cache')
c('C27','proved',[B+x for x in 'C27_get_returns_last_contents C27_get_succeeds C27_no_duplicates C27_not_lost C27_flush_writes_everything'.split()],'every history of cache operations, every device behaviour')
c('C28','proved',[B+x for x in 'C28_referenced_buffer_is_stable C28_busy_iff_all_referenced C28_get_takes_free_buffer C28_discard_refuses_referenced'.split()],'')
c('C36','proved',['RedFs.Props.Geometry.'+x for x in 'C36_role_inside C36_roles_disjoint C36_roles_cover C36_driver_blocks C36_bitmaps_large_enough C36_accepted_geometry C36_inode_count_wraps C36_imap_nodes_exceed_metaroot'.split()],'the last two are witnesses for configurations the code accepts although the layout is unsound (DESIGN.md findings 7, 8)')
c('C37','proved',['RedFs.Props.BlockIo.'+x for x in 'C37_block_io C37_blocks_disjoint C37_flush_retries C37_retries_255_hangs'.split()],'the last is the witness for the excluded retry count 255 (finding 12)')
c('C38','proved',['RedFs.Props.Util.C38_set','RedFs.Props.Util.C38_clear','RedFs.Props.Util.C38_order','RedFs.Props.Util.C38_bytes'],'')
U='RedFs.Props.Util.'
c('C35','proved',[U+x for x in 'C35_rev16_bytes C35_rev32_bytes C35_rev64_bytes C35_rev16_invol C35_rev32_invol C35_rev64_invol C35_portable16 C35_portable32 C35_portable64'.split()],'field level: every multi-byte field goes through these three functions')
c('C39','proved',[U+x for x in 'C39_memMove C39_memCpy C39_memSet C39_memCmp_zero C39_memCmp_sign C39_strLen C39_strCmp C39_strNCmp C39_strNCpy C39_nameLen'.split()],'')
S='RedFs.Props.Space.'
K='RedFs.Props.Crash.'
c('C15','proved',[S+'C15_alloc_only_free'],'both imap forms')
c('C16','proved',[S+'C16_alloc_complete'],'both imap forms, includes termination of the search')
c('C14','partial',[S+x for x in 'C14_alloc C14_free C14_transact C14_rollback C14_no_leak'.split()],'block level; API-level reachability to follow')
c('C06','proved',[K+'C06_mount_selects_newest',K+'C06_mount_fails_clean'],'')
c('C01','partial',[K+'C01_crash_recovers_committed',K+'C01_crash_between_transactions'],'block level, over every state satisfying the volume invariant; API-level reachability to follow')
c('C02','partial',[K+'C02_committed_never_overwritten'],'as C01')
c('C03','partial',[K+'C03_transact_durable'],'as C01')
c('C04','partial',[K+'C04_rollback_exact',K+'C04_rollback_after_transact'],'as C01')
Y='RedFs.Props.System.'
c('C01','proved',[Y+x for x in 'C01_every_history_refines C01_power_loss C01_power_loss_idle C01_power_loss_after_call C01_committed_state'.split()]+[K+'C01_crash_recovers_committed',K+'C01_crash_between_transactions'],'whole core API, every history of calls, power losses and formats')
c('C02','proved',[Y+x for x in 'C02_committed_blocks_kept C02_committed_blocks'.split()]+[K+'C02_committed_never_overwritten'],'')
c('C03','proved',[Y+x for x in 'C03_transact_durable C03_durable_forever'.split()]+[K+'C03_transact_durable'],'')
c('C04','proved',[Y+x for x in 'C04_rollback C04_rollback_after_anything'.split()]+[K+'C04_rollback_exact',K+'C04_rollback_after_transact'],'')
F='RedFs.Props.Format.'
c('C05','proved',[F+x for x in 'C05_format_succeeds C05_format_mounted C05_interrupted_format C05_interrupted_reformat C05_format_overcounts'.split()],'the last is the witness for finding 10 (format does not reset the count of almost-free blocks)')
P='RedFs.Props.Policy.'
c('C17','proved',[P+x for x in 'C17_shrink_after_transaction C17_shrink_with_volfull'.split()],'POSIX builds with unlink/truncate; the reserve is proved to suffice on every reachable volume')
c('C18','proved',[P+x for x in 'C18_retry_policy C18_no_hidden_transaction C18_at_most_one'.split()],'')
c('C42','proved',[P+x for x in 'C42_event_commits C42_unmount C42_queries_never_commit C42_mask_set C42_mask_kept'.split()],'a transaction with nothing to commit is not counted')
c('C25','proved',[P+x for x in 'C25_modifying_calls C25_no_call_writes C25_unmount_writes_nothing C25_session'.split()],'')
c('C26','proved',[P+'C26_not_mounted'],'')
A='RedFs.Props.Account.'
c('C14','proved',[A+x for x in 'C14_free_blocks_exact C14_statvfs C14_no_block_twice C14_transaction_frees_all'.split()]+[S+x for x in 'C14_alloc C14_free C14_transact C14_rollback C14_no_leak'.split()],'on every reachable volume; a format over a volume with pending frees is excluded (finding 10, witness C05_format_overcounts)')
c('C40','proved',[A+x for x in 'C40_lowest_free_inode C40_enfile C40_free_inodes'.split()],'')
c('C41','proved',[A+x for x in 'C41_one_copy C41_changed_copy_elsewhere C41_committed_copy_untouched C41_branch'.split()],'')
L='RedFs.Props.Files.'
c('C10','proved',[L+x for x in 'C10_contents C10_read C10_stat_size'.split()],'every sequence of calls, successful or not')
c('C11','proved',[L+'C11_other_files'],'')
c('C12','proved',[L+x for x in 'C12_after_truncate C12_behind_end'.split()],'')
c('C13','proved',[L+x for x in 'C13_prefix C13_failed_write'.split()],'')
c('C44','proved',[L+x for x in 'C44_size_le C44_write_efbig C44_write_clipped C44_truncate_efbig C44_addressable C44_distinct'.split()],'')
N='RedFs.Props.Names.'
c('C19','proved',[N+x for x in 'C19_is_map C19_names C19_lookup'.split()],'every sequence of calls')
c('C20','proved',[N+'C20_readdir'],'')
c('C21','proved',[N+x for x in 'C21_legal C21_unique C21_rejected'.split()],'')
c('C22','proved',[N+x for x in 'C22_connected C22_acyclic C22_every_file_has_a_path C22_rename_below_itself'.split()],'')
c('C23','proved',[N+x for x in 'C23_link_count C23_in_use_iff_named C23_unlink C23_emlink'.split()],'')
c('C24','proved',[N+x for x in 'C24_failed C24_names C24_files'.split()],'')
F='RedFs.Props.PosixFd.'
c('C29','proved',[F+x for x in 'C29_range C29_distinct C29_stays_open C29_open C29_ebadf C29_close C29_earlier_mount C29_stays_closed'.split()],'every history of POSIX calls')
F='RedFs.Props.PosixUse.'
c('C30','proved',[F+x for x in 'C30_open_exists C30_cwd_exists C30_same_file C30_unlink C30_rename C30_umount'.split()],'every history of POSIX calls')
F='RedFs.Props.PosixIo.'
c('C31','proved',[F+x for x in 'C31_offset_range C31_only_own_calls C31_read C31_write C31_lseek C31_whence'.split()],'')
c('C32','proved',[F+x for x in 'C32_rejected C32_opened C32_kept C32_accepted C32_accepted_creat C32_read_refused C32_write_refused'.split()],'')
F='RedFs.Props.PosixNames.'
c('C33','proved',[F+x for x in 'C33_split C33_split_nil C33_split_name C33_separators C33_one_result C33_walk_append C33_spelling C33_mkdir C33_unlink C33_link C33_open C33_open_error C33_chdir'.split()],'')
c('C34','proved',[F+x for x in 'C34_unique C34_exists C34_absolute C34_enoent C34_other_volumes C34_exdev C34_volume_calls'.split()],'')
c('C43','proved',['RedFs.Props.PosixTask.'+x for x in ['C43_linearizable','C43_exclusive','C43_errno','C43_slots_distinct','C43_too_many','C43_gets_slot','C43_errno_own','C43_errno_stored','C43_enough_slots']],'Any number of tasks, any schedule, any division of the critical sections into steps; linearizability against the sequential API. red_init and red_uninit are not called concurrently; the mutex is assumed to work; the global errno of unregistered tasks is excluded.')

F='RedFs.Fse.'
c('C45','proved',[F+x for x in 'C45_fse_refines C45_isolated C45_write_read C45_files C45_power_loss'.split()],'Trace refinement of fse.c (on the model of the core) to Spec/Fse: every history of calls, results and power losses. Format is excluded where finding 10 applies.')
c('C46','proved',['RedFs.Props.PosixCrash.C46_power_loss','RedFs.Props.PosixCrash.C46_power_loss_idle'],'Every reachable state, every permitted call but red_format (a crash during a format: C05), every crash image of every epoch of device writes the call makes.')
c('C47','proved',['RedFs.Props.Buffer.C47_only_marked_blocks_change','RedFs.Props.Buffer.C47_flush_begins_epoch','RedFs.Props.Buffer.C47_power_loss'],'On the model of buffer.c, device failures included; it discharges, for the cache, the assumption behind the crash images of the volume layer.')
c('C48','proved',['RedFs.Props.Swap.'+x for x in 'C48_same_bytes C48_read_back C48_buffer_kept C48_same_verdict C48_other_order C48_metaroot_same_bytes C48_metaroot_read_back C48_metaroot_other_order C48_metaroot_kept C48_dirent C48_failed_flush_leaves_swapped'.split()],'The last theorem is a finding: after a failed flush a swapping build keeps the metaroot in memory swapped.')
c('C49','proved',['RedFs.Props.PosixDurable.'+x for x in 'C49_never_lost C49_flush C49_umount C49_event C49_durable'.split()],'Power losses while another volume is being formatted are left out (C05 is about that volume); everything else is covered.')
c('C50','proved',['RedFs.Props.PosixErr.'+x for x in 'C50_documented C50_never C50_read_only C50_undocumented'.split()],'Device failures (EIO) are outside this layer; the exceptions are finding 23.')
c('C51','proved',['RedFs.Props.PosixFail.C51_unaltered','RedFs.Props.PosixFail.C51_append_moves'],'Device failures are outside this layer. The second theorem shows that the exception about appending occurs (finding 20).')
c('C52','proved',['RedFs.Props.PosixCwd.C52_getcwd', 'RedFs.Props.PosixCwd.C52_not_mounted', 'RedFs.Props.PosixCwd.C52_chdir_back', 'RedFs.Props.PosixCwd.C52_getcwd_back', 'RedFs.Props.PosixCwd.C52_one_volume', 'RedFs.Props.PosixCwd.C52_shadowed'],'C52_shadowed is the counterexample without the proviso (finding 24).')
c('C53','proved',['RedFs.Props.Fault.C53_no_fault', 'RedFs.Props.Fault.C53_fails', 'RedFs.Props.Fault.C53_power_loss', 'RedFs.Props.Fault.C53_read_only', 'RedFs.Props.Fault.C53_readable', 'RedFs.Props.Fault.C53_remount', 'RedFs.Props.Fault.C53_used_again'],'C53_used_again is a concrete history showing that C53_remount does not extend to using the volume again after it was remounted without a power loss (finding 25). Errors of other device operations are not modelled.')
c('C54','proved',['RedFs.Props.Device.C54_orderly', 'RedFs.Props.Device.C54_only_its_sectors', 'RedFs.Props.Device.C54_volumes_apart', 'RedFs.Props.Device.C54_access', 'RedFs.Props.Device.C54_open', 'RedFs.Props.Device.C54_size', 'RedFs.Props.Device.C54_partly_auto'],'C54_partly_auto shows where the code departs from include/redvolume.h and include/redmacs.h (finding 26). The list of blocks the driver asks for is arbitrary, except that mounting only reads and that a read-only volume is only read (proved of the driver in C25).')
c('C55','proved',['RedFs.Props.Blocks.C55_blocks', 'RedFs.Props.Blocks.C55_new_file', 'RedFs.Props.Blocks.C55_failed_call', 'RedFs.Props.Blocks.C55_extend', 'RedFs.Props.Blocks.C55_bounds'],'The history specification (Spec/Blocks.lean) mentions only calls and their results. Directories are covered by C55_bounds.')
c('C56','proved',['RedFs.Props.SpaceUse.C56_write_completes', 'RedFs.Props.SpaceUse.C56_extend_completes', 'RedFs.Props.SpaceUse.C56_volfull', 'RedFs.Props.SpaceUse.C56_short_count_with_volfull'],'C56_short_count_with_volfull is the negative part, with a concrete reachable state (finding 27).')
c('C57','proved',['RedFs.Props.Entries.C57_no_space', 'RedFs.Props.Entries.C57_volfull', 'RedFs.Props.Entries.C57_create_completes', 'RedFs.Props.Entries.C57_link_completes', 'RedFs.Props.Entries.C57_rename_completes'],'The bounds six and nine hold for every configuration (three tree levels); they are upper bounds and not exact for small trees.')
c('C58','proved',['RedFs.Props.Image.C58_files', 'RedFs.Props.Image.C58_committed', 'RedFs.Props.Image.C58_data'],'Ties the typed blocks of the main model to the byte-level model of C48: an image is made of what BufferFinalize and RedVolTransact write for each block of the committed state; nothing is assumed of other blocks. Metaroot numbers below 2^64. The sequence numbers of the nodes of a state are taken to be at most that of its metaroot (they are written before it). The master block is not part of the image. Directory entries are little-endian in the model, so for a big-endian device the contents part is about regular files (C48_dirent covers the entries).')
c('C59','proved',['RedFs.Props.Io.C59_no_fault', 'RedFs.Props.Io.C59_fails', 'RedFs.Props.Io.C59_power_loss', 'RedFs.Props.Io.C59_read_only', 'RedFs.Props.Io.C59_quiet', 'RedFs.Props.Io.C59_remount', 'RedFs.Props.Io.C59_every_history', 'RedFs.Props.Io.C59_history_power_loss', 'RedFs.Props.Io.C59_roomy', 'RedFs.Props.Io.C59_orphan'],'The file and directory layers are modelled a second time with every RedBufferGet, RedBufferFlushRange and RedIoRead/Write as an operation that may fail. C59_fails, C59_power_loss and C59_remount are for errors outside commits (Dev.Commits); errors during commits are C53 and are included in the histories (mode torn). Hypothesis Roomy: the attempt to create a file does not run out of space with volume-full transactions enabled; C59_orphan shows that the property is false without it (finding 28), C59_roomy when it is met. After an error in a commit the volume is not unmounted but restarted (finding 25). Formatting is on a device that works (C54 covers its errors).')
c('C60','proved',['RedFs.Props.Refs.C60_never_short', 'RedFs.Props.Refs.C60_no_call_is_busy', 'RedFs.Props.Refs.C60_all_given_back', 'RedFs.Props.Refs.C60_no_dangling', 'RedFs.Props.Refs.C60_free_buffer', 'RedFs.Props.Refs.C60_bound_is_reached', 'RedFs.Props.Refs.C60_one_less_is_short', 'RedFs.Props.Refs.C60_rename_bad_parent'],'The model keeps the control flow and the buffer pointers of every function that takes or gives back buffers and replaces every decision that depends on data by the next element of an arbitrary list, so the theorems cover every execution of the code (and more). It counts references, which is at least the number of buffers in use; C60_free_buffer connects this to the cache of C27/C28. Hypothesis of the histories: the source parent of a rename is an inode number in the valid range; C60_rename_bad_parent shows what happens otherwise (finding 29).')
c('C61','proved',['C61_constants', 'C61_directory_constants', 'C61_read', 'C61_write', 'C61_whole_blocks', 'C61_read_blocks', 'C61_write_blocks', 'C61_seek', 'C61_coordinates_differ', 'C61_truncate_first', 'C61_truncate_indirect', 'C61_truncate_double', 'C61_truncate_limits', 'C61_entry_offset', 'C61_entry_count', 'C61_entry_trim', 'C61_inode_place', 'C61_imap_place'],'Model/Words writes the computations with bit vectors of the widths of the code, wrapping, casts, shifts and masks included, and the constants as words too; RedInodeDataRead and RedInodeDataWrite are written out as whole functions and shown equal to the functions of the core model, the other computations as functions of their arguments. The truncating functions are written with words as whole in C65 and the directory loops in C64; ReadAligned, WriteAligned and GetExtent, whose runs meet the bound by C61_whole_blocks, in C61_read_blocks and C61_write_blocks. Physical block numbers are compared as unbounded numbers there.')
c('C62','proved',['C62_same_calls', 'C62_no_complaint', 'C62_stamps', 'C62_same_reading', 'C62_failed', 'C62_commit', 'C62_auto', 'C62_rollback', 'C62_remount', 'C62_stat', 'C62_order', 'C62_replaced'],'Model/Times writes the calls of core.c again with every RedInodePut and its flags, on a state with the stamps of all inodes of the working and of the committed state; erasing the stamps gives the core model (C62_same_calls). The specification (Spec/Times) says in terms of the files before the call which stamps it updates. C62_replaced is finding 30. Power loss and device errors are not part of this model. Stamps of 64 bits as unbounded numbers.')
c('C63','proved',['C63_independent', 'C63_untouched', 'C63_history', 'C63_one_volume'],"Which volume a call is about is said in Spec/PosixOwn from the path prefixes, descriptors and working directories. The other volume is replaced by an arbitrary state (noninterference), so the theorem covers states no history reaches. red_sync and red_uninit are about all volumes; that they treat each correctly is C46 and C29. The block buffer shared by the volumes is C27's.")
c('C64','proved',['C64_lookup', 'C64_read', 'C64_delete', 'C64_delete_wellformed', 'C64_lookup_ends', 'C64_read_ends', 'C64_delete_ends', 'C64_read_hangs', 'C64_lookup_hangs', 'C64_lookup_unset', 'C64_hangs_witness'],'The 32-bit loops take a bound on the number of blocks looked at and return `hang` when it is reached; that no bound suffices is what C64_*_hangs say. The index inside one block is a natural number. The claim that every call ends fails for a damaged image: findings 3 and 31.')
c('C65','proved',['C65_truncate', 'C65_fresh', 'C65_seek_keeps'],'C65_fresh and C65_seek_keeps show that the position hypothesis is met by inodes as they are mounted and after seeks. Physical block numbers, which are copied and compared only, are unbounded numbers on both sides.')
c('C66','proved',['C66_documented', 'C66_device', 'C66_every_history', 'C66_never', 'C66_undocumented', 'C66_empty_name'],'C66_device has the hypothesis Roomy of C59 (finding 28). What a volume answers on which the device has failed is not covered, except for calls that do not look at files.')
