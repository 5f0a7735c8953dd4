{
 "claims": [
  {
   "property": "C01",
   "status": "proved",
   "theorems": [
    "Verif.C01_local",
    "Verif.C01_local_info",
    "Verif.C01_remote",
    "Verif.C01_remote_info"
   ],
   "note": "All histories of database calls over a set of paths without 64-bit id clash."
  },
  {
   "property": "C02",
   "status": "proved",
   "theorems": [
    "Verif.C02_local",
    "Verif.C02_remote"
   ],
   "note": ""
  },
  {
   "property": "C03",
   "status": "proved",
   "theorems": [
    "Verif.C03_local",
    "Verif.C03_remote"
   ],
   "note": "Files and empty directories; the priority and local flag of non-empty directories are aggregates (C05, C06)."
  },
  {
   "property": "C04",
   "status": "proved",
   "theorems": [
    "Verif.C04_local",
    "Verif.C04_remote",
    "Verif.C04_partition"
   ],
   "note": "No call passes directory=False for a directory (the program never does)."
  },
  {
   "property": "C05",
   "status": "proved",
   "theorems": [
    "Verif.C05_sum"
   ],
   "note": "Histories in which update_paths/increment of a directory with entries come with one of the entries, as in the program. Priorities are exact rationals instead of floats."
  },
  {
   "property": "C06",
   "status": "proved",
   "theorems": [
    "Verif.C06_iff",
    "Verif.C06_below"
   ],
   "note": ""
  },
  {
   "property": "C07",
   "status": "proved",
   "theorems": [
    "Verif.C07_increment",
    "Verif.C07_files"
   ],
   "note": "Exact rationals instead of floats."
  },
  {
   "property": "C08",
   "status": "proved",
   "theorems": [
    "Verif.C08_scales",
    "Verif.C08_rows",
    "Verif.C08_order",
    "Verif.C08_product"
   ],
   "note": "Exact rationals instead of floats."
  },
  {
   "property": "C09",
   "status": "proved",
   "theorems": [
    "Verif.C09_terminates"
   ],
   "note": ""
  },
  {
   "property": "C10",
   "status": "partial",
   "theorems": [
    "Verif.C10_single_partial",
    "Verif.C10_batch_partial",
    "Verif.C10_history_partial",
    "Verif.C10_profile_partial",
    "Verif.C10_batch_fails",
    "Verif.C10_absent_fails",
    "Verif.C10_remove_fails",
    "Verif.C10_rm_fails"
   ],
   "note": "False as stated: in-batch clashes drop a path, look-ups and removals of a path never added hit the colliding one. Proved for one new path (C10_single_partial), for batches of any size if no two new paths of one batch may get the same id and the salts separate (C10_batch_partial), and for all histories of calls on the remote database with this (C10_history_partial): it then holds the same entries as a database that knows the paths themselves, however many stored paths have the same hash. C10_profile_partial is the same for the database of a profile, which also updates the directories above a path. There a removal of known paths can damage another one: rm_paths of a directory and a file in it forgets the salt of the directory and then updates what has its hash, so that a file that was added before it gets priority 0 and counts as not kept locally (C10_rm_fails)."
  },
  {
   "property": "C11",
   "status": "partial",
   "theorems": [
    "Verif.C11_top_partial",
    "Verif.C11_sync_partial",
    "Verif.C11_plain_partial",
    "Verif.C11_raises_iff",
    "Verif.C11_empty_profile_fails",
    "Verif.C11_never_fails",
    "Verif.C11_sync_fails"
   ],
   "note": "Proved for single calls and for whole syncs. False for profiles without a recorded file, where add_inflated raises: no sync succeeds until the profile knows a file (C11_never_fails)."
  },
  {
   "property": "C12",
   "status": "proved",
   "theorems": [
    "Verif.C12_limit",
    "Verif.C12_each"
   ],
   "note": "The blocks of unselected directories themselves are not counted, as in the code."
  },
  {
   "property": "C13",
   "status": "proved",
   "theorems": [
    "Verif.C13_dirs",
    "Verif.C13_files"
   ],
   "note": ""
  },
  {
   "property": "C14",
   "status": "proved",
   "theorems": [
    "Verif.C14_priority",
    "Verif.C14_small_files"
   ],
   "note": "C14_small_files shows that the bound on the sizes is needed."
  },
  {
   "property": "C15",
   "status": "proved",
   "theorems": [
    "Verif.C15_dirs",
    "Verif.C15_files",
    "Verif.C15_disjoint"
   ],
   "note": ""
  },
  {
   "property": "C16",
   "status": "proved",
   "theorems": [
    "Verif.C16_local",
    "Verif.C16_remote"
   ],
   "note": "What a glob pattern matches is a parameter."
  },
  {
   "property": "C17",
   "status": "proved",
   "theorems": [
    "Verif.C17_local",
    "Verif.C17_remote"
   ],
   "note": ""
  },
  {
   "property": "C18",
   "status": "partial",
   "theorems": [
    "Verif.C18_local_partial",
    "Verif.C18_remote_partial",
    "Verif.C18_trash_partial",
    "Verif.C18_permanent_partial",
    "Verif.C18_raises_iff",
    "Verif.C18_raises_example"
   ],
   "note": "compute_deleted raises KeyError when a known path is missing from the local directory and from the remote database (two clients deleted the same file); C18_raises_iff says exactly when it returns, the others what it returns then."
  },
  {
   "property": "C19",
   "status": "partial",
   "theorems": [
    "Verif.C19_both_kept_partial",
    "Verif.C19_crash_partial",
    "Verif.C19_untouched_partial",
    "Verif.C19_taken_fails",
    "Verif.C19_equal_mtimes"
   ],
   "note": "The full claim is false: a file that already has the conflict name is overwritten (C19_taken_fails). If the conflict names are free, both versions are kept, also at every crash point, and nothing else changes. C19_equal_mtimes shows that the mtimes must differ."
  },
  {
   "property": "C20",
   "status": "proved",
   "theorems": [
    "Verif.C20_same_directory",
    "Verif.C20_same_extension",
    "Verif.C20_changes_name",
    "Verif.C20_injective"
   ],
   "note": ""
  },
  {
   "property": "C21",
   "status": "partial",
   "theorems": [
    "Verif.C21_rest_kept",
    "Verif.C21_moved_partial",
    "Verif.C21_crash_partial",
    "Verif.C21_same_name_fails"
   ],
   "note": "The full claim is false: the names in the trash are read once per call, so two trashed files with the same name of one call get the same new name and the second overwrites the first (C21_same_name_fails). If the names of a call differ, every file is in the trash with its contents under a name that was free, also at every crash point it is at the old or the new place, and the rest is unchanged."
  },
  {
   "property": "C22",
   "status": "partial",
   "theorems": [
    "Verif.C22_only_old",
    "Verif.C22_all_old_partial",
    "Verif.C22_succeeds_partial",
    "Verif.C22_links_fail"
   ],
   "note": "Only old entries are removed, always. The other half is false if the trash holds a symbolic link (C22_links_fail): rmtree refuses it. Without links in the trash the clean-up is exact and does not fail. C99 tells what this means for whole syncs, and that TrashCleanupPeriod=0 turns the clean-up off."
  },
  {
   "property": "C23",
   "status": "proved",
   "theorems": [
    "Verif.C23_kept",
    "Verif.C23_removed"
   ],
   "note": "C23_kept holds at every crash point."
  },
  {
   "property": "C24",
   "status": "partial",
   "theorems": [
    "Verif.C24_fails",
    "Verif.C24_partial"
   ],
   "note": "The claim is false: an excluded file in a directory that was deleted remotely is deleted with the directory (C24_fails). Proved for a whole sync, however it ends: an excluded file that is not in the remote directory stays as it is, if no path above it was deleted remotely and nothing at or above it was added or changed. Assumed (SyncReady): both directories have the same kinds of files at the same paths, links meet only links or point to the file they meet, the databases know what is a directory, conflict names are free, the exclude files are regular files."
  },
  {
   "property": "C25",
   "status": "partial",
   "theorems": [
    "Verif.C25_fails",
    "Verif.C25_partial"
   ],
   "note": "The claim is false: an excluded file in a new local directory is uploaded with the directory (C25_fails). Proved for a whole sync, however it ends: an excluded file or unsafe link that the profile does not know and that is not in the remote directory is not put there, if no directory above it is new. Assumptions as for C24."
  },
  {
   "property": "C26",
   "status": "proved",
   "theorems": [
    "Verif.C26_unsafe_iff",
    "Verif.C26_nonlink_safe",
    "Verif.C26_absolute_unsafe"
   ],
   "note": ""
  },
  {
   "property": "C27",
   "status": "partial",
   "theorems": [
    "Verif.C27_fails",
    "Verif.C27_copies_partial",
    "Verif.C27_frame_partial",
    "Verif.C27_source_partial",
    "Verif.C27_move_partial"
   ],
   "note": "The full claim is false: a link at a destination path is written through (C27_fails). Under the assumption that destinations are clean (missing, a regular file, a directory over a directory, or a link to the source file or over a link) the copies are exact, and at every crash point nothing else changes; with rm_source a source file is gone only after its copy is complete."
  },
  {
   "property": "C28",
   "status": "proved",
   "theorems": [
    "Verif.C28_existing_kept",
    "Verif.C28_directories_kept",
    "Verif.C28_creates",
    "Verif.C28_overwrite"
   ],
   "note": "The first two hold at every crash point."
  },
  {
   "property": "C29",
   "status": "partial",
   "theorems": [
    "Verif.C29_copied_partial",
    "Verif.C29_linked_partial",
    "Verif.C29_dirs_partial",
    "Verif.C29_present_partial",
    "Verif.C29_freed_partial",
    "Verif.C29_emptied_partial",
    "Verif.C29_outside_partial",
    "Verif.C29_kept_partial",
    "Verif.C29_link_fails"
   ],
   "note": "The full claim is false: a local link at the path of a retained file that the profile does not know makes update_local copy through it, here over another remote file (C29_link_fails). If what is at the local paths of the retained files is clean, the claim holds. Also proved: the space of what is not retained is freed, a directory that the remote directory does not have any more is removed with all it contains, and however it ends nothing outside the local directory and no local path that is unknown or excluded changes. Assumed: both directories exist, neither is inside the other, the remote database knows what is a directory, no file is above a retained path."
  },
  {
   "property": "C30",
   "status": "proved",
   "theorems": [
    "Verif.C30_stale"
   ],
   "note": ""
  },
  {
   "property": "C31",
   "status": "partial",
   "theorems": [
    "Verif.C31_partial",
    "Verif.C31_remote_link_fails",
    "Verif.C31_local_link_fails"
   ],
   "note": "The claim is false: copies are written through symbolic links at their destination into other remote files (the two _fails theorems). Proved for a whole sync at every crash point under the assumptions of SyncReady, which exclude such links."
  },
  {
   "property": "C32",
   "status": "partial",
   "theorems": [
    "Verif.C32_fails",
    "Verif.C32_idle_fails",
    "Verif.C32_directory_fails",
    "Verif.C32_saved_fails",
    "Verif.C32_partial"
   ],
   "note": "The claim is false: a sync killed between removing a local file and creating the link in its place makes the next sync delete the remote file, which was the only copy (C32_fails). A sync copies every file that is kept locally again, even if nothing has changed; killed after it has emptied one of them, it makes the next sync copy the empty file over the remote one (C32_idle_fails). A sync killed after it has made the links for a directory that another client has added makes the next sync replace the remote files with links to themselves and fail (C32_directory_fails). A sync of a deletion killed after it has saved the remote database and before it has saved that of the profile makes every later sync raise KeyError (C32_saved_fails). Proved (C32_partial): after any number of interrupted syncs, a remote file that the profile knows and that was not deleted, changed or excluded locally is unchanged, unless an interrupted sync has left the local path missing or newer than the last sync; the states between the syncs are assumed to be as in SyncReady."
  },
  {
   "property": "C33",
   "status": "partial",
   "theorems": [
    "Verif.C33_paths_partial",
    "Verif.C33_dirs_partial",
    "Verif.C33_files_partial",
    "Verif.C33_links_partial",
    "Verif.C33_excluded_fails",
    "Verif.C33_link_fails"
   ],
   "note": "The full claim is false: an excluded file in a new local directory is uploaded and is in no database (C33_excluded_fails); a link that was changed remotely and for which there is no room stays as it was locally (C33_link_fails). Proved for every successful sync from a state as in SyncReady (see C24) and Calm: the two databases differ only by what another client has added or removed, and nothing below a locally changed path is excluded or an unsafe link."
  },
  {
   "property": "C34",
   "status": "partial",
   "theorems": [
    "Verif.C34_modified_partial",
    "Verif.C34_deleted_partial",
    "Verif.C34_added_partial",
    "Verif.C34_future_fails"
   ],
   "note": "The full claim is false: a file with an mtime in the future is found modified by every sync (C34_future_fails). Otherwise, with a clock that does not go back, compute_modified finds nothing after any successful sync. For compute_deleted and compute_added the assumptions are those of C33, with an exclude file that is in neither directory."
  },
  {
   "property": "C35",
   "status": "proved",
   "theorems": [
    "Verif.C35_roundtrip",
    "Verif.C35_stable",
    "Verif.C35_rewrite",
    "Verif.C35_linebreak"
   ],
   "note": "Values are stripped and contain no line breaks, as the property says. I/O errors are not modelled."
  },
  {
   "property": "C36",
   "status": "partial",
   "theorems": [
    "Verif.C36_fails",
    "Verif.C36_understood_partial",
    "Verif.C36_raises_iff"
   ],
   "note": "The claim is false (10mb is accepted and raises). The partial theorem covers K, k, M, G with no unit, B or iB; C36_raises_iff describes all other accepted values, which raise."
  },
  {
   "property": "C37",
   "status": "partial",
   "theorems": [
    "Verif.C37_fails",
    "Verif.C37_empty",
    "Verif.C37_understood_partial",
    "Verif.C37_none_iff"
   ],
   "note": "The claim is false (Yes is accepted and is neither true nor false). The partial theorem covers accepted values in lower case; C37_none_iff describes the rest."
  },
  {
   "property": "C38",
   "status": "proved",
   "theorems": [
    "Verif.C38_last",
    "Verif.C38_value",
    "Verif.C38_checkAll"
   ],
   "note": ""
  },
  {
   "property": "C39",
   "status": "partial",
   "theorems": [
    "Verif.C39_fields_partial",
    "Verif.C39_order_partial",
    "Verif.C39_close_partial",
    "Verif.C39_exact_partial",
    "Verif.C39_later_partial",
    "Verif.C39_early_fails"
   ],
   "note": "Holds for the years 1000 to 9999: the text is parsed back to the same microsecond and texts are ordered. Before the year 1000 the text cannot be parsed (C39_early_fails). Through floats, times are exact to the microsecond within 2^33 s of the epoch and within about 1 microsecond for all four-digit years."
  },
  {
   "property": "C40",
   "status": "proved",
   "theorems": [
    "Verif.C40_exclusive",
    "Verif.C40_exact",
    "Verif.C40_total",
    "Verif.C40_released",
    "Verif.C40_name_injective",
    "Verif.C40_long_fails"
   ],
   "note": "Over all interleavings of lock attempts and ends of processes. C40_exact: an attempt succeeds exactly if nobody holds that lock and the socket name fits into 108 bytes; a longer profile name can never be locked (C40_long_fails)."
  },
  {
   "property": "C41",
   "status": "partial",
   "theorems": [
    "Verif.C41_fails",
    "Verif.C41_lastSync_fails",
    "Verif.C41_lastAdjust_fails",
    "Verif.C41_serial_partial",
    "Verif.C41_pass_partial",
    "Verif.C41_values",
    "Verif.C41_locked"
   ],
   "note": "The claim is false: both times can go back (two schedules that respect the database lock). It holds for interleavings in which nobody writes between another process's read and write; in general races only bring back older recorded times. C41_locked: a new time is only written with the lock of the database. C41_pass_partial: a pass of the daemon that takes that lock before it reads the info file keeps the time of the last sync, whatever a sync does meanwhile."
  },
  {
   "property": "C42",
   "status": "partial",
   "theorems": [
    "Verif.C42_fails",
    "Verif.C42_spaced_partial",
    "Verif.C42_counted",
    "Verif.C42_sublist"
   ],
   "note": "The second half holds for all streams. The first half fails when a round takes long (C42_fails); counted openings are more than the cooldown period minus the lag apart."
  },
  {
   "property": "C43",
   "status": "partial",
   "theorems": [
    "Verif.C43_fails",
    "Verif.C43_commit_twice",
    "Verif.C43_once_partial",
    "Verif.C43_applied",
    "Verif.C43_priority_partial"
   ],
   "note": "Exactly once for any pattern of lock failures except a failing commit, after which the open transaction is incremented again (C43_commit_twice)."
  },
  {
   "property": "C44",
   "status": "partial",
   "theorems": [
    "Verif.C44_kept_partial",
    "Verif.C44_done_partial",
    "Verif.C44_resumed_partial",
    "Verif.C44_unclean_fails"
   ],
   "note": "The full claim is false for a resumed initialisation, which does not check again that the remote directory is empty: a link there makes it overwrite a copy (C44_unclean_fails). If nothing unexpected is at the remote paths of the files (in particular if the remote directory is empty) every file is kept at every crash point, over any number of crashes and resumptions, and is in the remote directory with a link to it after a success. Assumed: no local entry called .zielen, neither directory inside the other."
  },
  {
   "property": "C45",
   "status": "partial",
   "theorems": [
    "Verif.C45_kept_partial",
    "Verif.C45_retrieved_partial",
    "Verif.C45_cleared_partial",
    "Verif.C45_unlisted_partial",
    "Verif.C45_keep_partial",
    "Verif.C45_links_partial",
    "Verif.C45_unclean_fails"
   ],
   "note": "The full claim is false: a local link at the path of a file makes the reset copy that file over another one (C45_unclean_fails). If what is at the local paths of the files is clean (nothing, a regular file, the link to the remote file, a directory for a directory) the claim holds at every crash point. Assumed: both directories and the util directory exist, neither is inside the other, no file is above a path of the remote database."
  },
  {
   "property": "C46",
   "status": "partial",
   "theorems": [
    "Verif.C46_exact_partial",
    "Verif.C46_localPath",
    "Verif.C46_relative",
    "Verif.C46_two_slashes_fails"
   ],
   "note": "Exact for all accepted LocalDir values except those with exactly two leading slashes, which keep them and escape the comparison (C46_two_slashes_fails). Values that expand to a relative path always raise."
  },
  {
   "property": "C47",
   "status": "proved",
   "theorems": [
    "Verif.C47_complete",
    "Verif.C47_nodup",
    "Verif.C47_leaf_to_trunk"
   ],
   "note": ""
  },
  {
   "property": "C48",
   "status": "proved",
   "theorems": [
    "Verif.C48_init",
    "Verif.C48_res",
    "Verif.C48_mod"
   ],
   "note": ""
  },
  {
   "property": "C49",
   "status": "partial",
   "theorems": [
    "Verif.C49_fails",
    "Verif.C49_path_never",
    "Verif.C49_name_partial"
   ],
   "note": "The claim is false: Profile has no attribute cfg, so a path argument raises AttributeError. Selection by name is exact."
  },
  {
   "property": "C50",
   "status": "proved",
   "theorems": [
    "Verif.C50_empties",
    "Verif.C50_rest_unchanged",
    "Verif.C50_succeeds"
   ],
   "note": "C50_rest_unchanged holds at every crash point."
  },
  {
   "property": "C51",
   "status": "proved",
   "theorems": [
    "Verif.C51_list",
    "Verif.C51_list_defined",
    "Verif.C51_lines",
    "Verif.C51_aligned_partial",
    "Verif.C51_newline_fails"
   ],
   "note": "C51_list: every line of the table printed by list has the same visible width, for all config texts and all profile names without line breaks (init forbids white space in names). BoxTable itself is aligned for all cells without line breaks. Width is counted in code points."
  },
  {
   "property": "C52",
   "status": "proved",
   "theorems": [
    "Verif.C52_maximal"
   ],
   "note": ""
  },
  {
   "property": "C53",
   "status": "partial",
   "theorems": [
    "Verif.C53_left_partial",
    "Verif.C53_both_fails"
   ],
   "note": "The full claim is false for a resumed initialisation: an excluded local file is replaced by a link if the remote directory has something at its path (C53_both_fails). Without that, excluded paths and unsafe links are not touched. Same assumptions as C44."
  },
  {
   "property": "C54",
   "status": "partial",
   "theorems": [
    "Verif.C54_kept_partial",
    "Verif.C54_outside_partial",
    "Verif.C54_changed_fails"
   ],
   "note": "The full claim is false: a file changed locally since the last sync is replaced by the older remote one (C54_changed_fails). Files without a counterpart in the remote directory or not in the remote database are kept, and nothing outside the two directories changes. Same assumptions as C45."
  },
  {
   "property": "C55",
   "status": "partial",
   "theorems": [
    "Verif.C55_repeat_partial",
    "Verif.C55_missing_fails",
    "Verif.C55_killed_fails"
   ],
   "note": "The full claim is false: a reset that has been killed after retrieving a file fails with FileNotFoundError each time it is run again (C55_killed_fails, and in general C55_missing_fails). With --keep-remote or --no-retrieve it can be run any number of times. Same assumptions as C45."
  },
  {
   "property": "C56",
   "status": "partial",
   "theorems": [
    "Verif.C56_outside_partial",
    "Verif.C56_link_fails",
    "Verif.C89_outside_fails",
    "Verif.C89_overwrite_fails"
   ],
   "note": "The claim is false: if a known local file was replaced by a link to a file elsewhere, the sync writes the remote content through the link (C56_link_fails); if a directory was replaced by a link to a directory elsewhere, the sync deletes and overwrites files there (C89_outside_fails, C89_overwrite_fails, in the model of DeepCommands). Proved for a whole sync at every crash point under the assumptions of SyncReady. The databases, the info file and the lock are not files of the model."
  },
  {
   "property": "C57",
   "status": "partial",
   "theorems": [
    "Verif.C57_fails"
   ],
   "note": "The claim is false: the sync makes the local directory, takes every known path for deleted and removes it from the remote directory."
  },
  {
   "property": "C58",
   "status": "proved",
   "theorems": [
    "Verif.C58_no_remote"
   ],
   "note": "Assumed: the local directory exists, names are valid. Opening the databases, which comes first in the code, is not modelled."
  },
  {
   "property": "C59",
   "status": "partial",
   "theorems": [
    "Verif.C59_rows_partial",
    "Verif.C59_local_partial",
    "Verif.C59_retained_partial",
    "Verif.C59_freed_partial",
    "Verif.C59_copy_fails"
   ],
   "note": "The full claim is false: a file that is new in the remote directory and selected is copied but marked as not local (C59_copy_fails). The direction on which the safety of deletions rests is true: if only copies are marked as local before, only copies are afterwards. Assumptions as for C29; for files, that is known paths without known paths below them."
  },
  {
   "property": "C60",
   "status": "partial",
   "theorems": [
    "Verif.C60_local_partial",
    "Verif.C60_changed_partial",
    "Verif.C60_remote_partial",
    "Verif.C60_conflict_partial",
    "Verif.C60_deleted_fails",
    "Verif.C60_same_time_fails",
    "Verif.C60_excluded_fails"
   ],
   "note": "The full claim is false: a file changed locally and deleted remotely is removed (C60_deleted_fails); of two versions changed in the same second the remote one is overwritten (C60_same_time_fails); an excluded file in a new local directory overwrites a newer remote version (C60_excluded_fails). Proved for every crash point from a state as in SyncReady (see C24): every other version is still in one of the directories."
  },
  {
   "property": "C61",
   "status": "partial",
   "theorems": [
    "Verif.C61_files_partial",
    "Verif.C61_conflict_partial",
    "Verif.C61_dirs_partial",
    "Verif.C61_empty_fails"
   ],
   "note": "Proved for every successful sync from a state as in SyncReady (see C24). The full claim is false: a new empty directory is never created in the remote directory, and every sync ends with a KeyError (C61_empty_fails)."
  },
  {
   "property": "C62",
   "status": "partial",
   "theorems": [
    "Verif.C62_local_partial",
    "Verif.C62_remote_partial",
    "Verif.C62_changed_fails"
   ],
   "note": "Proved for every successful sync from a state as in SyncReady (see C24), for both directions. The full claim is false: if a file deleted remotely has been changed locally, it is removed but the sync raises FileNotFoundError and saves nothing (C62_changed_fails)."
  },
  {
   "property": "C63",
   "status": "partial",
   "theorems": [
    "Verif.C63_dangling_fails",
    "Verif.C63_matches_partial"
   ],
   "note": "False: if the profile has a link to a remote file that another client has deleted, and a pattern of the profile matches it, every later sync raises before it does anything (proved for any number of syncs, however many are killed); the partial theorem says that matching succeeds and gives exactly the excluded paths if every matched local entry can be followed or is a link into what is now a file"
  },
  {
   "property": "C64",
   "status": "partial",
   "theorems": [
    "Verif.C64_values",
    "Verif.C64_template_partial",
    "Verif.C64_master",
    "Verif.C64_empty_fails"
   ],
   "note": "The full claim is false: a template with an empty numeric option such as SyncInterval= is accepted, and then no command can read the profile (C64_empty_fails). Proved: the values of the new config file, and that it is accepted later if and only if no numeric option is left empty."
  },
  {
   "property": "C65",
   "status": "partial",
   "theorems": [
    "Verif.C65_value_partial",
    "Verif.C65_set_partial",
    "Verif.C65_default_partial",
    "Verif.C65_commented_fails"
   ],
   "note": "The full claim is false: reading never clears earlier values, so an option that is commented out keeps its old value in a running daemon (C65_commented_fails). Proved: options set in the current text have their value, and options never set have their default."
  },
  {
   "property": "C66",
   "status": "partial",
   "theorems": [
    "Verif.C66_broken_fails",
    "Verif.C66_forever_fails",
    "Verif.C66_cancel_fails",
    "Verif.C66_killed_fails",
    "Verif.C66_interrupted_partial",
    "Verif.C66_resume_partial"
   ],
   "note": "The full claim is false: killed between the creation of the info file and the end of writing the config file, init leaves a profile on which every command raises for good (C66_killed_fails, C66_broken_fails, C66_forever_fails), and reset refuses every partially initialised profile (C66_cancel_fails). Proved: interrupted later, the profile is left so that init completes it with the original options. The effects on the two sync directories are a parameter of this model."
  },
  {
   "property": "C67",
   "status": "partial",
   "theorems": [
    "Verif.C67_killed_fails",
    "Verif.C67_rejected_partial",
    "Verif.C67_checked_partial"
   ],
   "note": "The full claim is false: killed after the config file is written and before the rejected profile is removed, init leaves a profile that a second init completes without any check (C67_killed_fails). Proved for all sequences of commands that are not killed while they change the profile directory. What the check consists of is a parameter."
  },
  {
   "property": "C68",
   "status": "partial",
   "theorems": [
    "Verif.C68_refused",
    "Verif.C68_race_fails"
   ],
   "note": "Proved for an init that reads the status of the initialised profile. The full claim is false: the status is read before the lock, so an init that races with another one removes the profile that the other has just initialised (C68_race_fails)."
  },
  {
   "property": "C69",
   "status": "partial",
   "theorems": [
    "Verif.C69_agree_partial",
    "Verif.C69_ready_partial",
    "Verif.C69_meanwhile_partial",
    "Verif.C69_left_database"
   ],
   "note": "Proved for any number of clients and commands, if each command succeeds, one runs after the other (the daemons may count openings and adjust priorities in between), and the changes in between obey the restrictions in Edits and History (nothing changes between file and directory, nothing below a new directory is excluded, no client deletes what another excludes, the remote directory is changed by hand only if one client syncs). Between the commands other clients may empty the trash or leave with reset --keep-remote or --no-retrieve, however these end (C69_meanwhile_partial). Without these restrictions it is false, see C33, C34 and C32."
  },
  {
   "property": "C70",
   "status": "partial",
   "theorems": [
    "Verif.C70_kept",
    "Verif.C70_done",
    "Verif.C70_local_partial",
    "Verif.C70_resumed_fails"
   ],
   "note": "The first two sentences are proved (C70_kept, C70_done). The last one is false: a resumed initialisation does not check the local directory again and replaces a file that the user has made in the meantime with a link (C70_resumed_fails). Proved: local files whose path the remote directory does not have are not changed."
  },
  {
   "property": "C71",
   "status": "partial",
   "theorems": [
    "Verif.C71_partial",
    "Verif.C71_rest_partial",
    "Verif.C71_again_partial",
    "Verif.C71_conflict_fails",
    "Verif.C71_retry_fails",
    "Verif.C71_modified_fails",
    "Verif.C71_excluded_fails",
    "Verif.C71_stuck_fails",
    "Verif.C71_dangling_fails"
   ],
   "note": "In the states that Orderly describes (Spec/Orderly.lean: any files new, changed, deleted or in conflict on both sides, with a named condition for every failure found) a sync ends normally unless killed, leaves databases and directories in agreement, and so do the syncs that follow it. The full claim is false: a file deleted locally that another client has changed (C71_modified_fails) and an excluded file that another client has deleted (C71_excluded_fails) make this and later syncs raise KeyError (C71_stuck_fails: for all situations in which the profile knows a file that is neither in the local directory nor in the remote database, and any number of syncs); a conflict in which the local version is older and there is no room for it ends with FileNotFoundError (C71_conflict_fails), and the next sync deletes the newer version for good and fails too (C71_retry_fails). A relative link that leads nowhere is uploaded by init and makes every later sync raise FileNotFoundError (C71_dangling_fails)."
  },
  {
   "property": "C72",
   "status": "partial",
   "theorems": [
    "Verif.C72_partial",
    "Verif.C72_shows",
    "Verif.C72_sync_partial",
    "Verif.C72_init_partial",
    "Verif.C72_fails"
   ],
   "note": "The full claim is false: at a terminal the sizes are read with os.stat, so init raises FileNotFoundError if there is a link that leads nowhere, and succeeds elsewhere (C72_fails). Proved: a transfer without such links does exactly the same in both cases, with every exception and crash point; a sync or init that succeeds at a terminal does exactly the same elsewhere; what the bar shows."
  },
  {
   "property": "C73",
   "status": "partial",
   "theorems": [
    "Verif.C73_exact",
    "Verif.C73_started",
    "Verif.C73_spacing_partial",
    "Verif.C73_prompt_partial",
    "Verif.C73_clock_fails"
   ],
   "note": "Proved for every sequence of checks: exactly which check starts a sync; the distance between syncs (if the clock does not go back during a sync and intervals are not negative) and the delay (if the interval is not changed between the two checks). If the clock has been set back, nothing is synced for as long as it was set back by (C73_clock_fails). The child process is assumed to start and to end."
  },
  {
   "property": "C74",
   "status": "partial",
   "theorems": [
    "Verif.C74_partial",
    "Verif.C74_two_slashes_fails",
    "Verif.C74_stale_fails",
    "Verif.C74_inside_fails"
   ],
   "note": "Proved for directories given by absolute paths in normal form, any events in the local directory, and events in the remote one that are not in the local one. The full claim is false: if LocalDir has two leading slashes, which the config file may have, an opening in the local directory ends the daemon (C74_two_slashes_fails) or is counted for the file that was last opened in the remote directory (C74_stale_fails); if the remote directory is inside the local one, its openings are looked up under a wrong path (C74_inside_fails)."
  },
  {
   "property": "C75",
   "status": "partial",
   "theorems": [
    "Verif.C75_roundtrip",
    "Verif.C75_values",
    "Verif.C75_lookup",
    "Verif.C75_incomplete",
    "Verif.C75_length",
    "Verif.C75_partial",
    "Verif.C75_unequal",
    "Verif.C75_fails"
   ],
   "note": "Writing empties the file first, so reading raises JSONDecodeError while another process writes, which ends a daemon, and for good if that process is killed (C75_fails). Proved: apart from that a reader gets exactly the values of the last completed write. Parts of a text are never readable (C75_incomplete), and writes at the same time do not mix because all texts have the same length (C75_length, with years of four digits; C75_unequal shows why this matters). Reading is one step, and the text is written at once as it is shorter than the buffer."
  },
  {
   "property": "C76",
   "status": "partial",
   "theorems": [
    "Verif.C76_changed_partial",
    "Verif.C76_deleted_partial"
   ],
   "note": "Proved for any number of syncs of any clients after the change (Relay): whoever syncs last has the new file as a copy or as a link, or no longer has the deleted one. Partial because it needs that every sync ends without an error, that what C69 keeps true holds at the start of each (SyncReady, Calm; C69_ready_partial derives them from a history of commands), that the user changes nothing in the remote directory (SameRemote), and, for deletions, that each client in between knows the path and does not exclude it: a client with an own copy of a file that it does not know uploads it again. The new file is a regular file."
  },
  {
   "property": "C77",
   "status": "partial",
   "theorems": [
    "Verif.C77_partial",
    "Verif.C77_excluded_partial",
    "Verif.C77_excluded_fails",
    "Verif.C77_conflict_fails"
   ],
   "note": "Proved for whole syncs (not only for the selection, which is C12) when no conflict has an older local version and nothing that is excluded is known or in the remote directory. Both conditions are needed: an excluded file that the local directory has as a link is copied although only the link was counted, and the renamed older version of a conflict stays although it was not selected. The documentation also contradicts itself: one paragraph says that excluded files do not count toward the limit, another that they do; the code counts them, and so does the theorem."
  },
  {
   "property": "C78",
   "status": "partial",
   "theorems": [
    "Verif.C78_sync_partial",
    "Verif.C78_init",
    "Verif.C78_daemon",
    "Verif.C78_history_partial"
   ],
   "note": "Proved for every initialisation without conditions other than an empty database, for every successful sync from a state that the other theorems about syncs assume (SyncReady, Calm), for what the daemon does between two commands (counting openings of known files, adjusting all priorities), and for every history of successful commands of C69 with the daemons running in between. Missing: syncs from other states."
  },
  {
   "property": "C79",
   "status": "partial",
   "theorems": [
    "Verif.C79_partial",
    "Verif.C79_conflict_fails",
    "Verif.C79_excluded_fails"
   ],
   "note": "Proved for any number of further syncs, for the files, links and directories of both sides and for the rows of the databases apart from the local flag. Missing: profiles with excluded files and conflicts in which the local version is the older one; C79_excluded_fails and C79_conflict_fails show that the claim is wrong there: the second sync turns a regular file into a link."
  },
  {
   "property": "C80",
   "status": "partial",
   "theorems": [
    "Verif.C80_name",
    "Verif.C80_own",
    "Verif.C80_cwd_partial",
    "Verif.C80_default",
    "Verif.C80_empty_fails",
    "Verif.C80_init_fails",
    "Verif.C80_slashes_fails"
   ],
   "note": "Own directories are proved for all accepted names. That the directory does not depend on the working directory is proved if HOME is absolute and XDG_CONFIG_HOME is unset or absolute; with an empty XDG_CONFIG_HOME it is false, and init then always raises ValueError. A path with doubled slashes in XDG_CONFIG_HOME makes init accept a local directory inside the program directory. The character classes of the regular expressions are parameters."
  },
  {
   "property": "C81",
   "status": "proved",
   "theorems": [
    "Verif.C81_contract",
    "Verif.C81_inside",
    "Verif.C81_completions"
   ],
   "note": "Paths are compared as the components they lead to, without following symbolic links; C81_inside gives a result without .. for files in the home directory. What glob and isdir say is a parameter."
  },
  {
   "property": "C82",
   "status": "partial",
   "theorems": [
    "Verif.C82_partial",
    "Verif.C82_done",
    "Verif.C82_narrow_fails"
   ],
   "note": "Proved for terminals of at least nine columns; in narrower ones it is false for every message of at least two characters. The lengths are taken to be nearest integers of the exact products (floats are not modelled)."
  },
  {
   "property": "C83",
   "status": "partial",
   "theorems": [
    "Verif.C83_kept_partial",
    "Verif.C83_done_partial",
    "Verif.C83_remote_full",
    "Verif.C83_local_full",
    "Verif.C83_local_missing",
    "Verif.C83_add_kept",
    "Verif.C83_add_done",
    "Verif.C83_same_fails",
    "Verif.C83_inside_fails"
   ],
   "note": "Proved for directories neither of which is in the other. Without that it is false: nothing compares the local with the remote directory; an empty directory is accepted as both, and the next sync deletes the only copy of a new file. Write access is not modelled, and neither directory may be a link."
  },
  {
   "property": "C84",
   "status": "partial",
   "theorems": [
    "Verif.C84_kept_partial",
    "Verif.C84_done_partial",
    "Verif.C84_commit_fails",
    "Verif.C84_unchecked_fails",
    "Verif.C84_leftover_fails"
   ],
   "note": "Proved for local files, with crash points everywhere, also between the changes of the profile directory, except while init removes a new profile whose directories it has refused. False for the remote files: a refused run that is killed before it has removed the new profile is resumed without the checks, and overwrites remote files (C84_unchecked_fails). False for the next sync: killed between the info file and the database, init leaves a profile that counts as initialised with an empty database; the next sync replaces remote files by links to themselves and reports no error (C84_commit_fails). A directory left by a run that was killed while it created the profile counts as another profile with the same local directory, so the next run is refused once, although nothing is wrong (C84_leftover_fails). Directories as in C83."
  },
  {
   "property": "C85",
   "status": "partial",
   "theorems": [
    "Verif.C85_init_refused",
    "Verif.C85_init_enough",
    "Verif.C85_init_fits",
    "Verif.C85_reset_refused",
    "Verif.C85_reset_enough",
    "Verif.C85_reset_fits",
    "Verif.C85_excluded_fails",
    "Verif.C85_resume_fails",
    "Verif.C85_local_fails"
   ],
   "note": "Proved: refused without an effect if what is counted does not fit, otherwise exactly the same as without the check, and what is copied fits. That only what would be copied is counted is false: excluded files are counted (C85_excluded_fails), a resumed init counts again what it has already copied and can be refused for good (C85_resume_fails), and reset counts files that are already in the local directory (C85_local_fails). Full disks themselves are not modelled."
  },
  {
   "property": "C86",
   "status": "partial",
   "theorems": [
    "Verif.C86_sound_partial",
    "Verif.C86_absent",
    "Verif.C86_kept_partial",
    "Verif.C86_done_partial",
    "Verif.C86_empty_fails",
    "Verif.C86_refused_fails",
    "Verif.C86_unchecked_fails"
   ],
   "note": "Proved for one signal per run, with exit handlers that are not interrupted again. False in two moments: while the info file is empty at the end of init (C86_empty_fails: the profile is broken for good, see C66), and while a refused profile is being removed (C86_refused_fails, C86_unchecked_fails: it is resumed without checks and overwrites remote files). For the other commands a signal is the same as being killed, because nothing catches the exception."
  },
  {
   "property": "C87",
   "status": "partial",
   "theorems": [
    "Verif.C87_alone_partial",
    "Verif.C87_list_exact",
    "Verif.C87_blocked_fails",
    "Verif.C87_list_fails",
    "Verif.C87_init_fails",
    "Verif.C87_template_fails",
    "Verif.C87_leftover_fails"
   ],
   "note": "Proved for an initialisation if every other profile directory has no config file or can be read (C87_alone_partial), with the exact condition for list (C87_list_exact). False otherwise: one profile with a config file that cannot be read makes every new initialisation fail (C87_blocked_fails). An init that is killed when it has made the empty config file, or one with an empty value in its template, leaves such a profile, and no sequence of commands repairs it (C87_init_fails, C87_template_fails). list prints nothing if one profile directory has no complete config file, for good if init was killed between making the info file and the config file (C87_list_fails, C87_leftover_fails). sync and reset with the name of a profile read only its own directory."
  },
  {
   "property": "C88",
   "status": "partial",
   "theorems": [
    "Verif.C88_ends_partial",
    "Verif.C88_restored_partial",
    "Verif.C88_history_partial",
    "Verif.C88_roundtrip_partial",
    "Verif.C88_undo_ends_partial",
    "Verif.C88_dangling_fails",
    "Verif.C88_dangling_init_fails",
    "Verif.C88_others_fails"
   ],
   "note": "Proved for one client at a time. That it does not fail is proved if there are no links in the remote directory and every local link that is named like the directory it is in stands for a remote file. False otherwise: a link of the remote directory that leads nowhere, which init puts there, makes every reset without --no-retrieve fail, and nothing is retrieved (C88_dangling_fails, C88_dangling_init_fails). False for the other clients: their links lead nowhere afterwards (C88_others_fails)."
  },
  {
   "property": "C89",
   "status": "partial",
   "theorems": [
    "Verif.C89_nolinks_partial",
    "Verif.C89_nolinks_remove_partial",
    "Verif.C89_nolinks_local_partial",
    "Verif.C89_direct_partial",
    "Verif.C89_direct_local_partial",
    "Verif.C89_emptyTrash_partial",
    "Verif.C89_cleanup_partial",
    "Verif.C89_clear_partial",
    "Verif.C89_giveUp_partial",
    "Verif.C89_through_fails",
    "Verif.C89_sync_fails",
    "Verif.C89_reset_fails",
    "Verif.C89_upload_fails",
    "Verif.C89_remove_fails",
    "Verif.C89_outside_fails",
    "Verif.C89_overwrite_fails"
   ],
   "note": "False, and files are lost. Modelled apart from the other properties, with paths resolved through any number of links as the kernel does (DeepFS, DeepCommands). After init has uploaded a link to a directory of the user, the local link leads to the remote link; the first sync, or a reset, lists the directory through the remote link, finds that the source and the destination are the same file, and removes it (C89_through_fails for one round, C89_sync_fails and C89_reset_fails for whole commands: the content is in no file any more). A later link is uploaded as a directory with copies (C89_upload_fails). If the user has replaced a directory by a link to a directory elsewhere, a sync deletes and overwrites files there and reports no error (C89_remove_fails for one round, C89_outside_fails, C89_overwrite_fails). Without any links, transfers are the same as in the model used for the other properties (C89_nolinks_partial), and a deletion in the remote directory removes what was named there, with its rows, and nothing else (C89_nolinks_remove_partial), and one in the local directory the same except for what the exclude file matches (C89_nolinks_local_partial); with links anywhere, deletions stay at and below the named paths if the way to none of these goes through a link (C89_direct_partial, C89_direct_local_partial), and empty-trash removes links in the trash without touching what they lead to (C89_emptyTrash_partial), as does the clean-up of the trash with what it deletes (C89_cleanup_partial); there, links to directories give the result unmodelled, or an error if a path goes through one. Missing: a proof that whole commands are the same in both models if no path goes through a link."
  },
  {
   "property": "C90",
   "status": "partial",
   "theorems": [
    "Verif.C90_halves_partial",
    "Verif.C90_zero_fails"
   ],
   "note": "Proved for every half-life that is not zero and any sequence of rounds that do not use the file, with `0.5 ** x` left abstract (floats): the number of halvings is never more than the time divided by the half-life, and not less except for one unfinished adjustment interval and the sleep between the rounds, as long as the database is not locked when an adjustment is due. False for the half-life 0, which the configuration accepts: the division by zero is not caught and ends the daemon in the first round in which an adjustment is due."
  },
  {
   "property": "C91",
   "status": "partial",
   "theorems": [
    "Verif.C91_matches_partial",
    "Verif.C91_shell_partial",
    "Verif.C91_class",
    "Verif.C91_class_neg",
    "Verif.C91_negated",
    "Verif.C91_range",
    "Verif.C91_unclosed",
    "Verif.C91_generate",
    "Verif.C91_parameter",
    "Verif.C91_wild_fails",
    "Verif.C91_uploaded_fails",
    "Verif.C91_stars_fails"
   ],
   "note": "Proved for every tree, every sync directory whose path has no wildcard characters, and patterns without negations, ranges, unclosed brackets, `.` and `..`, of which the manual says nothing. The same is proved for patterns with sets of characters and ranges, negations of those, and unclosed brackets, with the meaning that shells give them (C91_shell_partial; C91_class, C91_class_neg, C91_negated, C91_range and C91_unclosed for what a bracket matches); missing there are literal hyphens and closing brackets in sets. The library (`glob`, `fnmatch` of Python 3.12) is modelled as well; links to directories are not entered. False in two ways: the path of the sync directory is taken for a part of the pattern, so that nothing at all is excluded if it has a component like `a[1]` (C91_wild_fails for every exclude file; C91_uploaded_fails: init uploads the excluded file), and a double asterisk inside of a component does not match slashes (C91_stars_fails). C91_parameter shows that the parameter patsOf of the other properties has an instance for each exclude file whose patterns are not restricted to directories."
  },
  {
   "property": "C92",
   "status": "partial",
   "theorems": [
    "Verif.C92_accepts_partial",
    "Verif.C92_only",
    "Verif.C92_unique",
    "Verif.C92_dashes_fails"
   ],
   "note": "Both directions and uniqueness are proved for all command lines. Missing: a line that ends in a bare `--` may be refused (witness: reset p -k --); and words that start with a dash count as operands in the second direction if they have a space or look like a negative number."
  },
  {
   "property": "C93",
   "status": "partial",
   "theorems": [
    "Verif.C93_partial",
    "Verif.C93_dash_fails"
   ],
   "note": "Proved for names that do not start with a dash. False for all other accepted names except a single dash and numbers: the daemon passes the name without `--`, so it is taken for an option and the profile is never synced."
  },
  {
   "property": "C94",
   "status": "partial",
   "theorems": [
    "Verif.C94_zero",
    "Verif.C94_reported",
    "Verif.C94_debug_partial",
    "Verif.C94_page",
    "Verif.C94_debug_fails"
   ],
   "note": "Proved but for one part: with --debug, errors in the command line itself still give a message instead of a stack trace."
  },
  {
   "property": "C95",
   "status": "proved",
   "theorems": [
    "Verif.C95_template",
    "Verif.C95_errors",
    "Verif.C95_silent",
    "Verif.C95_master"
   ],
   "note": "For every text of the template and of the standard input. The dialogue is specified without the loop (Spec/Dialogue.lean), the files by their last assignments. Line editing of the terminal and the printed messages are not modelled; shippedLines is the text of the installed template."
  },
  {
   "property": "C96",
   "status": "partial",
   "theorems": [
    "Verif.C96_partial",
    "Verif.C96_stuck_fails",
    "Verif.C96_forever_fails",
    "Verif.C96_killed_fails"
   ],
   "note": "False: every initialisation that makes the file can be killed between the creation of the file and its last table, and then no later init with that remote directory succeeds, whatever its options (three theorems). Proved: this is the only way to leave an incomplete file, and otherwise the run is a run of the model of init used in the other theorems."
  },
  {
   "property": "C97",
   "status": "partial",
   "theorems": [
    "Verif.C97_resumed_partial",
    "Verif.C97_new_partial",
    "Verif.C97_add_partial",
    "Verif.C97_dangling_fails",
    "Verif.C97_kinds_fails"
   ],
   "note": "False: if a pattern matches a local link that leads nowhere, the initialisation of a new profile always fails, and a resumed one fails if the sides have a file and a directory at one path; a kill while the database files are being made is the subject of C96 and not covered here, nor is the check of the space in the remote directory. Proved of the rest, for any number of killed runs, if every local link is unsafe or excluded and no pattern matches a link itself, the remote directory starts empty (or has no links, and directories exactly where the local directory has them), the pattern file is outside both directories and nothing is in the way of the directories that are made. With --add-remote nothing is assumed of links"
  },
  {
   "property": "C98",
   "status": "partial",
   "theorems": [
    "Verif.C98_sync",
    "Verif.C98_init",
    "Verif.C98_reset",
    "Verif.C98_emptyTrash",
    "Verif.C98_orderly_partial",
    "Verif.C98_initialised_partial",
    "Verif.C98_added_partial"
   ],
   "note": "That the four commands end is proved without assumptions, the two while loops of the code (collisions of ids, names in the trash) by C09 and by the bound on the names. That they succeed is partial because C71 and C97 are: it is proved for a sync of an orderly state, and for initialisations under the assumptions of C97"
  },
  {
   "property": "C99",
   "status": "partial",
   "theorems": [
    "Verif.C99_never",
    "Verif.C99_kept_partial",
    "Verif.C99_cleaned_partial",
    "Verif.C99_moved_partial",
    "Verif.C99_zero_fails",
    "Verif.C99_yes_fails"
   ],
   "note": "With a negative period nothing in the trash is ever lost (C99_never). TrashCleanupPeriod=0 and UseTrash=Yes are accepted and do not do what they say (C99_zero_fails, C99_yes_fails). The rest is proved, except that directories already in the trash are left out of C99_kept_partial, links in the trash of C99_cleaned_partial, and paths that would get the same name in the trash of C99_moved_partial (C21_same_name_fails)"
  },
  {
   "property": "C100",
   "status": "partial",
   "theorems": [
    "Verif.C100_refused",
    "Verif.C100_local_partial",
    "Verif.C100_limit_partial",
    "Verif.C100_limit_never",
    "Verif.C100_limit_unsaved",
    "Verif.C100_limit_fails",
    "Verif.C100_trash_partial",
    "Verif.C100_no_trash_partial",
    "Verif.C100_days_partial",
    "Verif.C100_inflate_partial",
    "Verif.C100_no_inflate_partial",
    "Verif.C100_ranking_partial"
   ],
   "note": "A sync from the text of the config file. Refusal of an erroneous file is proved for every text and state (C100_refused). Limits such as 10mb are accepted and no sync ever succeeds with them or saves anything (C100_limit_never, C100_limit_unsaved, C100_limit_fails). The directories are proved for normalised absolute paths and paths in the home directory; relative paths and paths with two leading slashes are not modelled. The limit and the trash are proved for states that are in order, with the assumptions of C77 and C99, the options InflatePriority and AccountForSize with those of C11 and C101."
  },
  {
   "property": "C101",
   "status": "partial",
   "theorems": [
    "Verif.C101_wins_partial",
    "Verif.C101_room_partial",
    "Verif.C101_small_fails"
   ],
   "note": "Proved for whole syncs from states in order (SyncReady, Calm) in which directories have the sum of their entries (C78), if no file takes less space than a link, no conflict has an older local version, and what is excluded is not known and not in the remote directory (C101_room_partial: nothing is excluded). False if there is an empty file, or one smaller than a link: it frees space in the middle of the selection, and a file may be replaced with a link while one of the same size and lower priority stays (C101_small_fails). Which directories are kept as a whole is only in C12, C13 and C15."
  },
  {
   "property": "C102",
   "status": "partial",
   "theorems": [
    "Verif.C102_keeps_partial",
    "Verif.C102_conflict_fails"
   ],
   "note": "Proved for files that are not in conflict and not excluded. Fails for files that have changed on both sides: handle_conflicts removes the row of the file, and the update adds it again with the priority 0, on both the winning and the losing side."
  },
  {
   "property": "C103",
   "status": "partial",
   "theorems": [
    "Verif.C103_marked_partial",
    "Verif.C103_trash_partial",
    "Verif.C103_init_partial",
    "Verif.C103_between_partial",
    "Verif.C103_history_partial",
    "Verif.C103_history_trash_partial",
    "Verif.C103_own_link_fails"
   ],
   "note": "What the links are recorded as holds after an initialisation, until the next sync and after each successful sync, and the next sync then moves the file of a deleted link to the trash. C103_history_partial and C103_history_trash_partial put this together for any number of clients and commands (the histories of C69, without links of the users where the remote directory has a file). Not covered: remote links, equal names in the trash. C103_own_link_fails: a link of the user at the path of a file that another client adds is recorded as a copy; when the user deletes the link the remote file is deleted for good, with UseTrash set."
  },
  {
   "property": "C104",
   "status": "partial",
   "theorems": [
    "Verif.C104_interval",
    "Verif.C104_read",
    "Verif.C104_changed",
    "Verif.C104_adjust",
    "Verif.C104_over",
    "Verif.C104_spacing",
    "Verif.C104_due",
    "Verif.C104_saving_partial",
    "Verif.C104_missing_fails",
    "Verif.C104_default_fails",
    "Verif.C104_saving_fails"
   ],
   "note": "What the daemon does is proved exactly: the options are those of all lines it has read so far, the last one counts (C104_interval, C104_adjust); a valid file takes effect with what it sets (C104_changed). Over the whole life of a daemon the syncs are as far apart as the smallest interval ever written asks, and a check starts one when the largest has passed (C104_spacing, C104_due). The last two sentences are false: a required option that is removed is not noticed, and the daemon starts syncs that are all refused (C104_missing_fails); an option that is removed keeps its old value (C104_default_fails). PriorityHalfLife=0 ends the daemon (C104_adjust). A file that is read while it is being saved ends the daemon if a part of a line has been written (C104_saving_fails), not if only whole lines have been written (C104_saving_partial). A read is one step here, see C105."
  },
  {
   "property": "C105",
   "status": "partial",
   "theorems": [
    "Verif.C105_check",
    "Verif.C105_over",
    "Verif.C105_spacing",
    "Verif.C105_goes_on_partial",
    "Verif.C105_gone",
    "Verif.C105_twice_fails"
   ],
   "note": "For all interleavings of the lines that the main thread reads with the checks of the other thread: what a check does is proved exactly (C105_check), when the daemon ends (C105_over), and the distance of the syncs (C105_spacing). That the thread goes on is proved for valid files that set SyncInterval at most once. False for a valid file that sets it twice, first to something that is not a number: a check between the two lines ends the thread with a ValueError, the daemon goes on, and no sync is ever started again (C105_twice_fails). Python int is only assumed to be right for texts of ASCII digits and to refuse the empty text."
  }
 ]
}