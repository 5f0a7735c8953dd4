{"id": "C01", "title": "Database lists exactly the paths added and not removed", "statement": "After any history of add_paths, update_paths, rm_paths, increment and adjust_all calls on either database (parents added no later than their children, no 64-bit id clash among the paths used), get_paths() returns each path that was added and not removed since, once, and nothing else; removing a path removes exactly it and everything below it.", "quantifier": "every finite history of database calls, every set of relative paths, every set iteration order", "why_tests_cant": "histories and trees are unbounded; a test fixes one small tree and one history", "anchors": ["zielen/profile.py: ProfileDBFile.add_paths/rm_paths/get_paths", "zielen/userdata.py: RemoteDBFile.add_paths/rm_paths/get_paths"]}
{"id": "C02", "title": "Subtree query returns exactly the subtree", "statement": "After any such history, get_paths(root=r) returns exactly those known paths that are r itself or have r as a leading sequence of path components (so 'ab' is never returned for root 'a'), with the same data that get_paths() reports, further restricted by the directory/local/min_lastsync filters.", "quantifier": "every history, every root, every combination of filters", "why_tests_cant": "the closure table is only right if every insertion order and every earlier removal left it right", "anchors": ["zielen/profile.py: ProfileDBFile.get_paths", "zielen/userdata.py: RemoteDBFile.get_paths", "zielen/containerbase.py: SyncDBFile"]}
{"id": "C03", "title": "Adding never disturbs what is recorded", "statement": "add_paths leaves the priority, the local flag and the lastsync time of every file that is already in the database unchanged, and records the given priority, local flag or timestamp for every file that is new.", "quantifier": "every database state reachable by such histories, every batch of files and directories", "why_tests_cant": "needs every overlap between batch and database", "anchors": ["zielen/profile.py: ProfileDBFile.add_paths", "zielen/userdata.py: RemoteDBFile.add_paths"]}
{"id": "C04", "title": "A path with sub-paths is a directory", "statement": "After any such history a path under which some other known path lies is reported as a directory, whether it was added as a file or as a directory; get_paths(directory=True) and get_paths(directory=False) partition get_paths().", "quantifier": "every history", "why_tests_cant": "unbounded histories", "anchors": ["zielen/containerbase.py: SyncDBFile._mark_directory", "zielen/profile.py: ProfileDBFile.add_paths"]}
{"id": "C05", "title": "Directory priority is the sum of its children", "statement": "After any history of the calls the program makes (add_paths, add_inflated, update_paths of the local flag, rm_paths, increment of files, adjust_all), the recorded priority of every directory that has at least one entry equals the sum of the priorities of its immediate entries.", "quantifier": "every history, every tree shape", "why_tests_cant": "the aggregate is maintained incrementally along ancestor chains of any depth", "anchors": ["zielen/profile.py: ProfileDBFile._update_priority", "zielen/utils.py: get_path_ancestry"]}
{"id": "C06", "title": "A directory is flagged local only if everything below it is", "statement": "After any such history the local flag of a directory that has entries is true exactly when the flags of all its immediate entries are true; hence a non-empty directory flagged local has every file below it flagged local.", "quantifier": "every history, every tree shape", "why_tests_cant": "aggregate over unbounded trees; it decides between trash and permanent deletion", "anchors": ["zielen/profile.py: ProfileDBFile._update_local", "zielen/filelogic.py: FilesManager.compute_deleted"]}
{"id": "C07", "title": "Priority increments are exact", "statement": "increment(paths, x) raises the priority of each known file by x times the number of its occurrences in paths, raises the priority of every directory by the total raise of the files below it, and changes nothing else.", "quantifier": "every reachable database, every list of file paths with repetitions, every increment", "why_tests_cant": "unbounded inputs", "anchors": ["zielen/profile.py: ProfileDBFile.increment"]}
{"id": "C08", "title": "Decay scales every priority and keeps the ranking", "statement": "adjust_all(c) multiplies every recorded priority by c and changes nothing else; for c > 0 it preserves the relative order of any two files, and applying factors c1..cn in turn is the same as applying their product.", "quantifier": "every database, every factor", "why_tests_cant": "ordering of every pair", "anchors": ["zielen/profile.py: ProfileDBFile.adjust_all", "zielen/daemon.py: Daemon._adjust"]}
{"id": "C09", "title": "Adding paths terminates under any hash", "statement": "The id-collision loop of add_paths ends after at most one more round than there are paths in the batch, whatever the hash function and whatever salts are drawn.", "quantifier": "every hash function, every salt generator, every database, every batch", "why_tests_cant": "a test cannot make sha256 collide", "anchors": ["zielen/profile.py: ProfileDBFile.add_paths", "zielen/userdata.py: RemoteDBFile.add_paths", "zielen/containerbase.py: SyncDBFile._get_path_id"]}
{"id": "C10", "title": "Colliding ids never merge two files", "statement": "When the 64-bit id of an added path equals that of a different path, both paths are afterwards retrievable with their own data; and a path that was never added is reported as absent.", "quantifier": "every hash function, every pair of paths, every database", "why_tests_cant": "sha256 prefix collisions cannot be produced in a test", "anchors": ["zielen/containerbase.py: SyncDBFile._get_path_id", "zielen/profile.py: ProfileDBFile.add_paths/get_path_info"]}
{"id": "C11", "title": "New local files start at the top priority", "statement": "With InflatePriority enabled, a sync records for each new local file a priority at least as high as that of every file already known, and this works for every profile state.", "quantifier": "every reachable database, every set of new files", "why_tests_cant": "includes the profile that has no files yet", "anchors": ["zielen/profile.py: ProfileDBFile.add_inflated", "zielen/commands/sync.py: SyncCommand.main"]}
{"id": "C12", "title": "Selection respects the storage limit", "statement": "The files and directories selected to stay local, counted by remote disk usage, plus one block for every file left as a symbolic link, never exceed the storage limit minus the size of excluded files, unless nothing at all is selected.", "quantifier": "every tree, all sizes, priorities, limits and block sizes", "why_tests_cant": "all combinations of nested directories, sizes and priorities", "anchors": ["zielen/filelogic.py: FilesManager.prioritize_dirs", "zielen/filelogic.py: FilesManager.prioritize_files", "zielen/commands/sync.py: SyncCommand.main"]}
{"id": "C13", "title": "Selection does not depend on iteration order", "statement": "prioritize_dirs and prioritize_files return the same selection and the same remaining space for every order in which the database returns the paths.", "quantifier": "every permutation of the database rows", "why_tests_cant": "hash-randomised set and row orders", "anchors": ["zielen/filelogic.py: FilesManager.prioritize_dirs", "zielen/filelogic.py: FilesManager.prioritize_files"]}
{"id": "C14", "title": "Higher priority wins", "statement": "If two files both compete for space, each occupies at least one block, and the one with the lower (size-adjusted) priority is selected to stay local, then the other one is selected too whenever it is no larger; ties go to the lexicographically smaller path.", "quantifier": "every set of files, sizes, priorities, limits", "why_tests_cant": "all orderings and sizes", "anchors": ["zielen/filelogic.py: FilesManager.prioritize_files"]}
{"id": "C15", "title": "Whole directory trees are selected", "statement": "No selected directory lies below another selected directory, no individually selected file lies in a selected directory, and every selected file or directory is known to the profile.", "quantifier": "every tree and every priority assignment", "why_tests_cant": "unbounded trees", "anchors": ["zielen/filelogic.py: FilesManager.prioritize_dirs", "zielen/filelogic.py: FilesManager.prioritize_files"]}
{"id": "C16", "title": "Detection of additions is exact", "statement": "compute_added reports as new local paths exactly the scanned local paths that are not in the profile database, are not unsafe symbolic links and are not excluded, and as new remote paths exactly the scanned remote paths not in the profile database.", "quantifier": "every pair of directory trees, every database, every exclude set", "why_tests_cant": "unbounded trees", "anchors": ["zielen/filelogic.py: FilesManager.compute_added"]}
{"id": "C17", "title": "Detection of modifications is exact", "statement": "compute_modified reports as modified local paths exactly the known non-directories whose mtime is later than the last sync and that are not unsafe links, and as modified remote paths exactly those known with a later mtime plus those files another client synced after the last sync.", "quantifier": "every pair of trees, databases and clocks", "why_tests_cant": "boundary of equal times and all combinations", "anchors": ["zielen/filelogic.py: FilesManager.compute_modified"]}
{"id": "C18", "title": "Deletions are detected at their top-most path, and trash is used for files not kept locally", "statement": "compute_deleted returns, for files known to the profile and missing from one side, exactly those with no missing proper ancestor; with UseTrash, a path is put in the trash set exactly when the profile flags it as not kept locally, and a path is deleted permanently only if it and every known file below it are flagged local (or it is an empty directory).", "quantifier": "every pair of trees and databases", "why_tests_cant": "all nestings of deleted directories; all local flags", "anchors": ["zielen/filelogic.py: FilesManager.compute_deleted"]}
{"id": "C19", "title": "Conflicts keep both versions", "statement": "When a file was changed on both sides with different mtimes, handle_conflicts renames the version with the older mtime on its own side to the conflict name and leaves the newer version in place, so both contents still exist; files changed on one side only are not touched.", "quantifier": "every pair of trees, every set of conflicting paths", "why_tests_cant": "all sets of simultaneous conflicts", "anchors": ["zielen/filelogic.py: FilesManager.handle_conflicts", "zielen/filelogic.py: FilesManager._rename_files", "zielen/filelogic.py: PathsDiff"]}
{"id": "C20", "title": "Conflict names are unambiguous", "statement": "timestamp_path keeps the directory and the extension of a path, always changes the name, and gives different names to different paths at the same instant.", "quantifier": "every path string and timestamp", "why_tests_cant": "all strings, including dots and hidden files", "anchors": ["zielen/utils.py: timestamp_path"]}
{"id": "C21", "title": "Trashing never overwrites", "statement": "Moving a set of remote paths to the trash loses no content: every trashed file is afterwards in the trash under its own distinct name, and everything already in the trash is still there unchanged.", "quantifier": "every trash content, every batch of paths", "why_tests_cant": "collisions inside one batch and with counters already taken", "anchors": ["zielen/filelogic.py: FilesManager.trash_files"]}
{"id": "C22", "title": "Trash clean-up deletes only what is old enough", "statement": "cleanup_trash removes exactly the trash entries whose mtime is at or before now minus the configured number of days and touches nothing outside the trash; a negative TrashCleanupPeriod disables it.", "quantifier": "every trash content, clock and period", "why_tests_cant": "boundary times", "anchors": ["zielen/filelogic.py: FilesManager.cleanup_trash", "zielen/profile.py: Profile.cleanup_period"]}
{"id": "C23", "title": "An excluded file leaves the remote only when every client excludes it", "statement": "rm_excluded_files removes from the remote directory exactly those of the given paths that match the exclude patterns of every registered client (and everything below removed directories); a file that some client does not exclude stays.", "quantifier": "every number of clients, every pattern set, every tree", "why_tests_cant": "unbounded number of clients and patterns", "anchors": ["zielen/userdata.py: RemoteSyncDir.check_excluded", "zielen/filelogic.py: FilesManager.rm_excluded_files"]}
{"id": "C24", "title": "Excluded files stay in the local directory", "statement": "A sync never deletes an excluded file from the local directory.", "quantifier": "every pair of trees, every exclude set, every remote deletion", "why_tests_cant": "all relations between excluded files and remotely deleted directories", "anchors": ["zielen/filelogic.py: FilesManager.rm_local_files"]}
{"id": "C25", "title": "Excluded files and unsafe links are not uploaded", "statement": "A sync never copies an excluded local file or an unsafe local symbolic link that is not already in the remote directory to the remote directory.", "quantifier": "every local tree and every exclude set", "why_tests_cant": "all nestings of excluded files in new directories", "anchors": ["zielen/filelogic.py: FilesManager.update_remote", "zielen/fstools.py: transfer_tree"]}
{"id": "C26", "title": "Symbolic link safety is decided correctly", "statement": "is_unsafe_symlink(link, parent) is false exactly for non-links and for links whose target is a relative path that, resolved textually from the link's directory, is parent itself or lies below it.", "quantifier": "every link path, every target string, every normalised absolute parent", "why_tests_cant": "all strings with '.', '..', repeated slashes", "anchors": ["zielen/fstools.py: is_unsafe_symlink"]}
{"id": "C27", "title": "transfer_tree copies content and metadata and nothing else", "statement": "When it succeeds, transfer_tree leaves at the destination, for every listed file (and every file below a listed directory) that is not excluded, a copy with the source's content and mtime; every destination path that is not a listed path, below one or a parent of one keeps its content; the source is unchanged unless rm_source is given.", "quantifier": "every source and destination tree and every list of files", "why_tests_cant": "unbounded trees; overwriting of existing files and links", "anchors": ["zielen/fstools.py: transfer_tree"]}
{"id": "C28", "title": "symlink_tree never replaces existing entries unless told to", "statement": "Without overwrite, symlink_tree leaves every existing destination entry unchanged, creates the missing directories and links with the right targets, and returns exactly the paths it created; with overwrite, existing files and links are replaced by links and directories are kept.", "quantifier": "every destination tree and every set of paths", "why_tests_cant": "unbounded trees", "anchors": ["zielen/fstools.py: symlink_tree"]}
{"id": "C29", "title": "After update_local every remote file is reachable locally", "statement": "After a successful update_local, every path in the remote database is present in the local directory: as a directory, as a regular copy if it is among or below the retained paths, and otherwise as an existing entry or a symbolic link to the remote file.", "quantifier": "every pair of trees and every set of retained paths", "why_tests_cant": "unbounded trees", "anchors": ["zielen/filelogic.py: FilesManager.update_local", "zielen/filelogic.py: FilesManager.compute_stale"]}
{"id": "C30", "title": "Stale files are exactly the known files outside the retained set", "statement": "compute_stale returns exactly the scanned, non-excluded, known local paths that are neither at or below a retained path nor an ancestor of a known path at or below a retained path.", "quantifier": "every tree, every retained set", "why_tests_cant": "unbounded trees", "anchors": ["zielen/filelogic.py: FilesManager.compute_stale"]}
{"id": "C31", "title": "A sync touches only remote files it has a reason to touch, at every crash point", "statement": "However a sync ends (success, exception, or being killed between any two file system operations), a remote file whose path was not deleted locally (nor below such a path), not added or changed locally, not renamed by a conflict and not excluded has its content and mtime unchanged.", "quantifier": "every initial state, every crash point", "why_tests_cant": "crash points and states are unbounded", "anchors": ["zielen/commands/sync.py: SyncCommand.main", "zielen/filelogic.py: FilesManager"]}
{"id": "C32", "title": "An interrupted sync followed by a sync loses no file", "statement": "If a sync is killed at any point and a sync is run again, every file that neither the user nor another client deleted still exists with its content in the remote directory, the local directory or the trash.", "quantifier": "every initial state, every crash point", "why_tests_cant": "crash points cannot be enumerated by tests", "anchors": ["zielen/commands/sync.py: SyncCommand.main", "zielen/filelogic.py: FilesManager.update_local"]}
{"id": "C33", "title": "A successful sync makes both sides agree", "statement": "After a successful sync both databases and the remote directory hold the same set of paths, and each of them is in the local directory either as an identical copy or as a link to the remote copy.", "quantifier": "every initial state with changes on either side", "why_tests_cant": "all combinations of additions, deletions and modifications", "anchors": ["zielen/commands/sync.py: SyncCommand.main"]}
{"id": "C34", "title": "A second sync with nothing changed detects nothing", "statement": "Immediately after a successful sync, compute_added, compute_deleted and compute_modified all return empty sets.", "quantifier": "every state reached by a successful sync", "why_tests_cant": "fixpoint over all states", "anchors": ["zielen/commands/sync.py: SyncCommand.main"]}
{"id": "C35", "title": "Config files round-trip", "statement": "Writing a config file from a template and reading it back yields, for every key in the template, the value that was set (or the template's own value), for every template text.", "quantifier": "every template text and every set of values without line breaks", "why_tests_cant": "all texts: comments, blanks, duplicate keys, repeated '='", "anchors": ["zielen/containerbase.py: ConfigFile.read/write"]}
{"id": "C36", "title": "Every accepted storage limit is understood", "statement": "For every StorageLimit value accepted by the config check, storage_limit returns number times 1000^k or 1024^k according to the unit, and never fails.", "quantifier": "every accepted string", "why_tests_cant": "the accepted language is infinite", "anchors": ["zielen/profile.py: Profile.storage_limit", "zielen/profile.py: ProfileConfigFile.check_value"]}
{"id": "C37", "title": "Every accepted boolean option is understood", "statement": "For every value accepted by the config check for UseTrash, InflatePriority or AccountForSize, the option is true exactly when the value is 'yes' or 'true' in any case.", "quantifier": "every accepted string", "why_tests_cant": "the accepted language includes all case variants", "anchors": ["zielen/profile.py: Profile._convert_bool", "zielen/profile.py: ProfileConfigFile.check_value"]}
{"id": "C38", "title": "Defaults apply exactly to omitted options", "statement": "For every config text, an option that appears keeps its last value and an omitted optional option has its documented default; check_all accepts exactly the texts with all required keys, no unknown keys and only valid values.", "quantifier": "every config text", "why_tests_cant": "infinite language", "anchors": ["zielen/profile.py: ProfileConfigFile.vals/check_all"]}
{"id": "C39", "title": "Sync times are stored exactly", "statement": "A sync time stored in the profile info file and read back is the same instant to the microsecond, for every instant in the years 1 to 9999, and later instants are stored as lexicographically larger strings.", "quantifier": "every microsecond instant", "why_tests_cant": "3*10^17 instants, leap years", "anchors": ["zielen/profile.py: Profile._convert_epoch/_convert_timestamp"]}
{"id": "C40", "title": "Commands on one profile exclude each other", "statement": "In every interleaving of any number of processes of any users, at most one process holds the lock of a given user's profile, two different profiles or users never block each other, and a process that ends in any way frees its lock.", "quantifier": "every interleaving, every set of processes, every profile name", "why_tests_cant": "schedules are unbounded", "anchors": ["zielen/commandbase.py: Command.lock/unlock"]}
{"id": "C41", "title": "The info file never loses an update", "statement": "In every interleaving of the daemon and a sync, the recorded time of the last sync and of the last adjustment never go back.", "quantifier": "every interleaving", "why_tests_cant": "races on the info file", "anchors": ["zielen/daemon.py: Daemon.main/_adjust", "zielen/profile.py: Profile.write", "zielen/commands/sync.py: SyncCommand.main"]}
{"id": "C42", "title": "Quick successive openings count once", "statement": "For every stream of file openings, each counted opening of a path is more than COOLDOWN_PERIOD seconds after the previously counted one of that path, and every opening is either counted or within COOLDOWN_PERIOD of a counted one.", "quantifier": "every event stream and every batching into polls", "why_tests_cant": "timing-dependent", "anchors": ["zielen/daemon.py: Daemon.main"]}
{"id": "C43", "title": "No opening is lost while the database is locked", "statement": "Counted openings are applied to the priorities exactly once, no matter how often the database is locked and the daemon has to retry.", "quantifier": "every sequence of lock failures", "why_tests_cant": "timing-dependent", "anchors": ["zielen/daemon.py: Daemon.main"]}
{"id": "C44", "title": "Initialisation preserves the user's files at every crash point", "statement": "However an initialisation from local files ends, each regular local file that is not excluded still has its content either at its local path or at its remote path; when it succeeds every such file is in the remote directory and the local path is a link to it.", "quantifier": "every local tree, every crash point", "why_tests_cant": "crash points and trees are unbounded", "anchors": ["zielen/filelogic.py: FilesManager.setup_from_local/_setup_dir", "zielen/commands/init.py: InitCommand.main"]}
{"id": "C45", "title": "Reset retrieves every file before clearing the remote", "statement": "However a reset ends, each file in the remote database has its content in the local or in the remote directory; when it succeeds without --no-retrieve every such file is a regular local file again; the remote directory is cleared only if no file is left in it.", "quantifier": "every pair of trees, every crash point", "why_tests_cant": "crash points and trees are unbounded", "anchors": ["zielen/commands/reset.py: ResetCommand.main", "zielen/fstools.py: transfer_tree"]}
{"id": "C46", "title": "Profiles never overlap", "statement": "init accepts a local directory only if it is not equal to, above or below the program directory or any other profile's local directory.", "quantifier": "every set of profiles and every normalised path", "why_tests_cant": "all path pairs including common name prefixes", "anchors": ["zielen/commands/init.py: InitCommand._verify_local_dir"]}
{"id": "C47", "title": "Path ancestry is complete, duplicate-free and leaf-to-trunk", "statement": "get_path_ancestry returns each given path and each of its non-empty ancestors exactly once, never a directory before one of its descendants.", "quantifier": "every list of relative paths", "why_tests_cant": "unbounded depth", "anchors": ["zielen/utils.py: get_path_ancestry"]}
{"id": "C48", "title": "PathsDiff tracks renames", "statement": "After any sequence of add, rm and rename on a PathsDiff, init_paths is the starting set, res_paths is what the operations leave, and mod_paths lists exactly the starting paths whose current name differs.", "quantifier": "every sequence of operations", "why_tests_cant": "unbounded histories", "anchors": ["zielen/filelogic.py: PathsDiff"]}
{"id": "C49", "title": "A profile can be selected by its local directory", "statement": "select_profile accepts the name of any profile or the path of its local directory.", "quantifier": "every set of profiles and every input", "why_tests_cant": "all inputs", "anchors": ["zielen/commandbase.py: Command.select_profile"]}
{"id": "C50", "title": "empty-trash empties exactly the trash", "statement": "After empty-trash the remote trash directory is empty and every other path is unchanged.", "quantifier": "every remote tree", "why_tests_cant": "unbounded trees", "anchors": ["zielen/commands/emptytrash.py: EmptyTrashCommand.main"]}
{"id": "C51", "title": "The profile table is always aligned", "statement": "Every line that the list command prints has the same visible width, whatever the cell contents, including ANSI escape codes.", "quantifier": "every table", "why_tests_cant": "all cell contents", "anchors": ["zielen/utils.py: BoxTable"]}
{"id": "C52", "title": "No space is wasted", "statement": "If every file that competes for space occupies at least one block, then no file that was left as a symbolic link would still fit in the space that prioritize_files reports as remaining.", "quantifier": "every set of files, sizes, priorities, limits", "why_tests_cant": "all orderings and sizes", "anchors": ["zielen/filelogic.py: FilesManager.prioritize_files"]}
{"id": "C53", "title": "Initialisation leaves excluded files alone", "statement": "However an initialisation from local files ends, a local path that the profile excludes, and a link that leads out of the local directory, is what it was before.", "quantifier": "every local tree, every crash point", "why_tests_cant": "crash points and trees are unbounded", "anchors": ["zielen/filelogic.py: FilesManager.setup_from_local/_setup_dir", "zielen/commands/init.py: InitCommand.main"]}
{"id": "C54", "title": "Reset never destroys a local file", "statement": "However a reset ends, the content of every regular file that was in the local directory is still in a file, and nothing outside the local and the remote directory has changed.", "quantifier": "every pair of trees, every crash point", "why_tests_cant": "crash points and trees are unbounded", "anchors": ["zielen/commands/reset.py: ResetCommand.main", "zielen/fstools.py: transfer_tree"]}
{"id": "C55", "title": "An interrupted reset can be run again", "statement": "If a reset has been killed or has failed, running it again with enough time completes it: every file of the remote database becomes a regular local file.", "quantifier": "every pair of trees, every crash point, any number of runs", "why_tests_cant": "crash points and sequences of runs are unbounded", "anchors": ["zielen/commands/reset.py: ResetCommand.main", "zielen/fstools.py: transfer_tree"]}
{"id": "C56", "title": "A sync touches nothing outside the two directories", "statement": "However a sync ends, every file that is neither in the local nor in the remote directory has the same content and mtime as before.", "quantifier": "every file system, every crash point", "why_tests_cant": "crash points and trees are unbounded", "anchors": ["zielen/commands/sync.py: SyncCommand.main", "zielen/fstools.py: transfer_tree"]}
{"id": "C57", "title": "A missing local directory does not empty the remote one", "statement": "If the local directory does not exist when a sync starts (for example because its file system is not mounted), the sync does not remove any file from the remote directory.", "quantifier": "every remote tree, every database", "why_tests_cant": "needs an environment that unit tests do not set up; all trees", "anchors": ["zielen/commands/sync.py: SyncCommand.main", "zielen/commandbase.py: Command.setup_profile", "zielen/filelogic.py: FilesManager.compute_deleted"]}
{"id": "C58", "title": "A missing remote directory changes nothing", "statement": "If the remote directory does not exist when a sync starts, the sync fails and every file is what it was before.", "quantifier": "every file system, every database, every crash point", "why_tests_cant": "all trees, databases and crash points", "anchors": ["zielen/commands/sync.py: SyncCommand.main", "zielen/userdata.py: RemoteSyncDir.add_exclude_file"]}
{"id": "C59", "title": "The local marks are right", "statement": "After a successful update_local the profile marks as local exactly the files of which the local directory holds a copy, and as not local the files that are links to the remote directory.", "quantifier": "every tree, every database, every set of retained paths", "why_tests_cant": "all trees and databases; the marks decide later what goes to the trash", "anchors": ["zielen/filelogic.py: FilesManager.update_local", "zielen/profile.py: ProfileDatabase.update_paths", "zielen/filelogic.py: FilesManager.compute_deleted"]}
{"id": "C60", "title": "A sync loses no version of a file", "statement": "However a sync ends, every version of a file that was in the local or the remote directory is still in one of them, at its path or at a conflict name, unless it was deleted on the other side or replaced by a version that the other side has changed.", "quantifier": "every pair of trees, every database, every crash point", "why_tests_cant": "crash points and trees are unbounded; the losses need unusual combinations of changes", "anchors": ["zielen/commands/sync.py: SyncCommand.main", "zielen/filelogic.py: FilesManager.rm_local_files", "zielen/filelogic.py: FilesManager.handle_conflicts", "zielen/filelogic.py: FilesManager.update_remote", "zielen/filelogic.py: FilesManager.update_local"]}
{"id": "C61", "title": "Local changes reach the remote directory", "statement": "After a successful sync every local file or directory that is new or has been changed, and is not excluded, is in the remote directory: at its path, or, if the remote file has been changed too and is newer, at a conflict name; the older of two versions always gets the conflict name.", "quantifier": "every pair of trees, every database", "why_tests_cant": "all combinations of changes on both sides", "anchors": ["zielen/commands/sync.py: SyncCommand.main", "zielen/filelogic.py: FilesManager.handle_conflicts", "zielen/filelogic.py: FilesManager.update_remote", "zielen/fstools.py: transfer_tree"]}
{"id": "C62", "title": "Deletions are applied to the other side", "statement": "After a successful sync, whatever was known and has been deleted in one directory is, with everything below it, in neither directory and in no database, unless it was deleted remotely and is excluded locally.", "quantifier": "every pair of trees, every database", "why_tests_cant": "all combinations of deletions and changes", "anchors": ["zielen/commands/sync.py: SyncCommand.main", "zielen/filelogic.py: FilesManager.compute_deleted", "zielen/filelogic.py: FilesManager.rm_local_files", "zielen/filelogic.py: FilesManager.rm_remote_files", "zielen/filelogic.py: FilesManager.update_local"]}
{"id": "C63", "title": "A deleted file does not block a profile for good", "statement": "If another client deletes a file from the remote directory, later syncs of this profile still succeed (or fail only for other reasons), whatever the profile excludes.", "quantifier": "every pair of trees, every exclude pattern, any number of syncs", "why_tests_cant": "needs a deletion by another client together with a change of the exclude file, and an unbounded number of later syncs", "anchors": ["zielen/profile.py: ProfileExcludeFile._glob", "zielen/commands/sync.py: SyncCommand.main"]}
{"id": "C64", "title": "A profile made from an accepted template can be used", "statement": "If init accepts a template and valid answers, the config file it writes is accepted by every later command, and has the values of the template and the answers.", "quantifier": "every template text, all valid answers", "why_tests_cant": "the set of template texts is infinite; acceptance in init and acceptance later are separate checks", "anchors": ["zielen/profile.py: Profile.generate", "zielen/profile.py: ProfileConfigFile.prompt", "zielen/profile.py: ProfileConfigFile.check_all", "zielen/containerbase.py: ConfigFile.write"]}
{"id": "C65", "title": "A running daemon uses the config file as it is", "statement": "After the config file has been read again, every option has the value that the current text gives it, or its default if the current text does not set it.", "quantifier": "every sequence of texts of the config file", "why_tests_cant": "needs all histories of edits of the file while one process keeps its state", "anchors": ["zielen/containerbase.py: ConfigFile.read", "zielen/daemon.py: Daemon._sync", "zielen/profile.py: ProfileConfigFile.vals"]}
{"id": "C66", "title": "An interrupted initialisation can be completed or cancelled", "statement": "Whenever an initialisation is interrupted, a later init completes it with the same options, or a reset cancels it, as the printed message says.", "quantifier": "every point at which the process is killed, every option, any number of later commands", "why_tests_cant": "needs a kill between any two changes of the profile directory, and unbounded later commands", "anchors": ["zielen/commands/init.py: InitCommand.main", "zielen/commandbase.py: Command.setup_profile", "zielen/commandbase.py: Command.print_interrupt_msg", "zielen/profile.py: Profile.generate"]}
{"id": "C67", "title": "The directories of a profile have passed the checks of init", "statement": "If a profile exists, its local and its remote directory were found valid by init, whatever commands have been run and however they ended.", "quantifier": "every sequence of commands, every point at which one is killed", "why_tests_cant": "the set of histories is infinite and includes kills at every point", "anchors": ["zielen/commands/init.py: InitCommand.main", "zielen/commands/init.py: InitCommand._verify_local_dir", "zielen/fstools.py: check_dir"]}
{"id": "C68", "title": "init leaves an existing profile alone", "statement": "Running init on an initialised profile raises an error and changes nothing, even if another process initialises it at the same time.", "quantifier": "every profile, every option, every interleaving with another process", "why_tests_cant": "needs interleavings with another process between the check of the status and the lock", "anchors": ["zielen/commands/init.py: InitCommand.main", "zielen/commandbase.py: Command.lock"]}
{"id": "C69", "title": "Profiles that share a remote directory stay in order", "statement": "Whatever sequence of init and sync commands the clients of a remote directory have run, and whatever the user has done in between, after each successful command the saved databases of the client and the remote directory list the same paths, and every remote file is available in the client's local directory.", "quantifier": "any number of clients and commands, all changes of files between commands", "why_tests_cant": "the set of histories is infinite; a test can only follow some of them", "anchors": ["zielen/commands/sync.py: SyncCommand.main", "zielen/commands/init.py: InitCommand.main", "zielen/userdata.py: LocalSyncDir", "zielen/filelogic.py: FilesManager"]}
{"id": "C70", "title": "Adding a client changes no remote file and links all of them", "statement": "init --add-remote changes no file of the remote directory, however it ends. After a success every remote file that is not an unsafe link is in the local directory as a link to it, every directory as a directory, and the database lists exactly these. No local file is destroyed.", "quantifier": "every remote directory, every state of the local directory, every point at which the process is killed or a system call fails", "why_tests_cant": "needs all directory trees and a failure at every system call, and what a user does before the initialisation is resumed", "anchors": ["zielen/commands/init.py: InitCommand.main", "zielen/filelogic.py: FilesManager.setup_from_remote", "zielen/filelogic.py: FilesManager._setup_dir", "zielen/fstools.py: symlink_tree"]}
{"id": "C71", "title": "A sync of a profile that is in order ends without an error", "statement": "If both directories can be read and written, the databases and the directories agree except for what users have changed, and the process is not killed, a sync ends without an exception, and what it leaves lets the next sync do the same. Conflicts and deletions are part of normal use.", "quantifier": "every state of the two directories and databases, every combination of changes on both sides", "why_tests_cant": "an exception after files have moved and before the databases are saved can only be excluded by following every path through the whole command", "anchors": ["zielen/commands/sync.py: SyncCommand.main", "zielen/filelogic.py: FilesManager.update_local", "zielen/filelogic.py: FilesManager.handle_conflicts", "zielen/userdata.py: SyncDir.scan_paths"]}
{"id": "C72", "title": "A command does the same at a terminal as elsewhere", "statement": "Whether the standard output is a terminal affects only what is shown: init and sync change the same files in the same order and end in the same way. The progress bar never goes back, never leaves the range from 0 to 1 and ends at 1.", "quantifier": "every directory tree, every set of transferred and excluded paths, every point at which the process is killed", "why_tests_cant": "tests do not run at a terminal; the sum of sizes, the steps of the bar and every kind of entry would have to be combined", "anchors": ["zielen/fstools.py: transfer_tree", "zielen/utils.py: ProgressBar.update", "zielen/filelogic.py: FilesManager.setup_from_local", "zielen/filelogic.py: FilesManager.update_local", "zielen/filelogic.py: FilesManager.update_remote"]}
{"id": "C73", "title": "The daemon starts a sync when one is due and not before", "statement": "While the daemon runs, a sync starts as soon as the sync interval has passed since the end of the last sync that it has started, at most one check later, and never earlier. A sync that fails is tried again after the full interval.", "quantifier": "every sequence of clock readings, intervals and durations of syncs", "why_tests_cant": "runs are unbounded, and clock readings are arbitrary", "anchors": ["zielen/daemon.py: Daemon._sync"]}
{"id": "C74", "title": "An opening is counted for the file that was opened", "statement": "For every file of the profile that is opened in the local or the remote directory, the daemon looks up the path of this file relative to that directory and considers no other, and no event ends the daemon.", "quantifier": "every pair of directories, every sequence of events over any number of rounds", "why_tests_cant": "depends on all combinations of the texts of both directories and of the reported paths, and on a variable that is kept from earlier events", "anchors": ["zielen/daemon.py: Daemon.main"]}
{"id": "C75", "title": "Who reads the info file gets the values of a completed write", "statement": "At every moment, and whatever other processes write or are killed, reading the info file of an initialised profile gives the values that a completed write has put there: never an exception, never a mixture of two writes, and never a part of one.", "quantifier": "all values, any number of processes, every interleaving and every kill", "why_tests_cant": "needs every interleaving of opening, writing and reading of several processes, and every text that can be cut or overwritten", "anchors": ["zielen/containerbase.py: JSONFile.read", "zielen/containerbase.py: JSONFile.write", "zielen/profile.py: ProfileInfoFile", "zielen/daemon.py: Daemon.main"]}
{"id": "C76", "title": "What one client changes or deletes reaches the other clients", "statement": "When one client has synchronised a new, changed or deleted file without an error, every other client that synchronises later, directly or after any number of syncs of any clients, then has the new file (as a copy or as a link to it) or no longer has the deleted one, unless it has changed, deleted or excluded the file itself.", "quantifier": "every number of clients, every sequence of syncs after the change, all file trees and databases", "why_tests_cant": "is about any number of runs on different computers that communicate only through the remote directory and its database", "anchors": ["zielen/commands/sync.py: SyncCommand.main", "zielen/filelogic.py", "zielen/remote.py"]}
{"id": "C77", "title": "After a sync the local directory takes no more space than the storage limit", "statement": "After `zielen sync` has ended without an error, the regular files in the local directory together with the links that stand for the remaining files take no more disk space than `StorageLimit`, unless everything in the local directory is excluded.", "quantifier": "all local and remote trees, all priorities, sizes and limits, all changes and deletions since the last sync on either side", "why_tests_cant": "The bound is about the sum of all files after the interplay of scanning, conflict handling, uploading, selection, removal and copying; a test checks one arrangement of sizes, and the arrangements that break it (an excluded file that is only a link, a conflict with an older local version) need several conditions at once.", "anchors": ["zielen/commands/sync.py:114", "zielen/filelogic.py:215", "zielen/filelogic.py:360", "docs/zielen.1.rst:53"]}
{"id": "C78", "title": "The priority of a directory stays the sum of the priorities of its entries", "statement": "After an initialisation, and after a sync without an error if it was so before, the priority of every directory in the profile's database that has entries is the sum of the priorities of its entries, whatever has been added, deleted, renamed in a conflict, copied or excluded in between.", "quantifier": "for all environments, initial states, histories of successful commands of any number of clients", "why_tests_cant": "The claim is about the database after a whole command, which adds, removes, renames and marks rows in many steps, each with other paths; a test sees one directory tree and one set of changes.", "anchors": ["zielen/commands/sync.py:59-141", "zielen/profile.py:556-860", "zielen/filelogic.py:438-499", "zielen/commands/init.py:108-172"]}
{"id": "C79", "title": "A sync to which nothing has happened changes nothing", "statement": "If no file is changed, added or deleted in either directory between two successful syncs of a profile, the second sync leaves the local and the remote directory with the same paths, the same regular files (contents and modification times) and the same links as the first one did, and so does every sync after it.", "quantifier": "all profiles, directory contents, database contents and storage limits; any number of further syncs", "why_tests_cant": "A test repeats one sync on one directory; whether the second selection agrees with the first depends on what the first one has written to the databases and directories, for every selection.", "anchors": ["zielen/commands/sync.py:64-160", "zielen/filelogic.py:184-413"]}
{"id": "C80", "title": "Every profile has a directory of its own", "statement": "A name that init accepts for a profile gives a directory directly inside the directory of the profiles, and different names give different directories. The directory does not depend on the working directory from which the program is started.", "quantifier": "all names, all values of HOME and XDG_CONFIG_HOME, all working directories", "why_tests_cant": "The names are free text checked with two regular expressions, and the directories are built from environment variables and the working directory; a test tries a few of them.", "anchors": ["zielen/commands/init.py:77-82", "zielen/paths.py:22-47", "zielen/profile.py:60-75"]}
{"id": "C81", "title": "A completed path names the file that was found", "statement": "When the program asks for a path and completes what was typed, every path that it offers with a leading ~ names the file that was found in the file system, and every file that was found is offered. A file in the home directory is offered without a .. in its path.", "quantifier": "all home directories, all working directories, all typed texts, all contents of the file system", "why_tests_cant": "The result combines expanduser, relpath and join on strings with repeated slashes, dots and parent directories; a test covers single combinations.", "anchors": ["zielen/utils.py:108-134"]}
{"id": "C82", "title": "The progress bar fills exactly one line of the terminal", "statement": "While files are transferred to a terminal, every update prints exactly as many characters as the terminal has columns: the beginning of the message, at least one space, the bar and the percentage; so the next update overwrites all of it. When everything is transferred the bar is filled and 100 % is shown.", "quantifier": "all widths, all messages, all amounts", "why_tests_cant": "The lengths come from two roundings and a slice whose bound may be negative; a test looks at one width.", "anchors": ["zielen/utils.py:200-256", "zielen/fstools.py:30", "zielen/fstools.py:88-113"]}
{"id": "C83", "title": "A new initialisation that passes its checks loses nothing", "statement": "A new initialisation without --add-remote is refused, and changes nothing, if there is anything in the remote directory or no local directory; one with --add-remote is refused, and changes nothing, if there is anything in the local directory. Otherwise, wherever it stops, every regular local file that is not excluded is at its local or its remote path, and nothing in the remote directory that --add-remote names is touched; after a success every local file has been moved to the remote directory and replaced by a link, or the local directory mirrors the remote one, and the databases agree with the directories.", "quantifier": "every content of both directories, including missing ones, every set of other profiles, every crash point", "why_tests_cant": "all trees and all interruption points; the cases that a test would try are the ones in which the two directories are unrelated", "anchors": ["zielen/fstools.py:check_dir", "zielen/commands/init.py:InitCommand.main", "zielen/commands/init.py:InitCommand._verify_local_dir"]}
{"id": "C84", "title": "An initialisation that is started again and again loses nothing", "statement": "Without a profile, run init without --add-remote any number of times with the same options, each run ending in any way: refused, with an error, or killed. After every run, every regular local file that is not excluded is at its local or its remote path, and the first run that succeeds leaves an initialised profile, the file in the remote directory and a link to it in the local one. No run replaces a file that was in the remote directory before the first one, and the next sync keeps all files. A run that is killed never makes the next one be refused.", "quantifier": "every content of both directories, every number of runs, every crash point of each", "why_tests_cant": "the claim is about all sequences of interruptions, each of which leaves a profile directory and two sync directories from which the next run has to go on", "anchors": ["zielen/commands/init.py:97-172", "zielen/profile.py:125-128", "zielen/profile.py:60-130", "zielen/filelogic.py:438-499"]}
{"id": "C85", "title": "init and reset copy nothing for which there is no space", "statement": "init without --add-remote is refused, before it has copied or changed any file, if what is in the local directory takes more space than there is for the remote directory; reset without --no-retrieve is refused, before it has changed anything, if what is in the remote directory takes more space than there is for the local one. If they are not refused the files that they copy take no more than that space, and the check has no other effect. A command is refused only if what it would copy does not fit.", "quantifier": "every content of both directories, every amount of free space, every crash point", "why_tests_cant": "what is counted is one list of paths, and what is copied another one, which depends on exclude patterns, links, the databases and earlier interruptions; a test compares them for one tree", "anchors": ["zielen/userdata.py:108-130", "zielen/filelogic.py:469-473", "zielen/commands/reset.py:53-60"]}
{"id": "C86", "title": "A signal while init runs leaves no broken profile", "statement": "When init gets SIGINT, SIGTERM or SIGHUP at any point, the profile afterwards does not exist, or can be resumed, or is initialised; before the directories have been checked, it does not exist. Local files are kept, also over any number of runs some of which are killed and some of which get a signal.", "quantifier": "all points at which a signal can come, all contents of the directories, all sequences of runs", "why_tests_cant": "A signal raises an exception between any two instructions, and then exit handlers run whose registration depends on the point; a test sends a signal at one moment.", "anchors": ["zielen/cli.py:255-320", "zielen/commands/init.py:62-76", "zielen/commands/init.py:94-172", "zielen/profile.py:95-128"]}
{"id": "C87", "title": "A profile that cannot be used is not in the way of the others", "statement": "If one profile directory is incomplete or cannot be read, `list` still prints the other profiles, and new profiles can still be initialised, exactly as if that directory did not exist. The other profiles matter to an initialisation only because their local directories must not overlap with the new one.", "quantifier": "every set of profile directories, every content of them, every sequence of init, sync and reset for any of the profiles, every crash point", "why_tests_cant": "it is a claim about every combination of profile directories and about what no sequence of commands can repair", "anchors": ["zielen/commands/list.py:30-51", "zielen/commands/init.py:181-214", "zielen/commandbase.py:56-66", "zielen/profile.py:85-123"]}
{"id": "C88", "title": "A profile can be given up without losing anything", "statement": "After commands that have succeeded, reset does not fail. When it has succeeded without options, every regular file that was in the remote directory is a regular file with the same content at its local path, the regular files and directories that were in the local directory are as they were, nothing else is there, no link to a remote path is left and the remote directory is empty. In particular, init in an empty remote directory and then reset leave the same regular files and directories in the local directory as before.", "quantifier": "every content of both directories, every history of commands of any number of clients before", "why_tests_cant": "it is a claim about the composition of commands over all trees; a test runs them on one tree, without links in it", "anchors": ["zielen/commands/reset.py:49-90", "zielen/commands/init.py:97-172", "zielen/fstools.py:28-120", "zielen/fstools.py:182-195"]}
{"id": "C89", "title": "Symbolic links to directories are treated like any other link", "statement": "A symbolic link to a directory in the local or remote directory is synced as a link: it is uploaded as a link, and no command reads, copies, removes or changes what is in the directory that it leads to because of the link. In particular init and then sync or reset do not destroy the files of a directory of the user to which a link of the user leads.", "quantifier": "every file system with any links in it, every command", "why_tests_cant": "it depends on how the system resolves each of the paths that the commands build, through any number of links; a test has one arrangement of links", "anchors": ["zielen/fstools.py:33-121", "zielen/fstools.py:63-74", "zielen/fstools.py:96-105", "zielen/filelogic.py:360-436", "zielen/commands/reset.py:49-90"]}
{"id": "C90", "title": "The priority of a file that is not used halves in each half-life", "statement": "While the daemon runs, the priority of a file that the user does not use is halved in every PriorityHalfLife hours: after t seconds it is the old priority times 1/2 to the power t / (3600 * PriorityHalfLife), never less, and more only by what the last unfinished adjustment interval and the sleep between rounds account for. This holds for every value of PriorityHalfLife the configuration accepts.", "quantifier": "for all databases, paths, accepted half-lives, sequences of daemon rounds in which the file is not opened", "why_tests_cant": "The number of rounds and their times are unbounded, and the claim is about the product of all adjustments; a test looks at one adjustment.", "anchors": ["zielen/daemon.py:155-171", "zielen/daemon.py:173-217", "zielen/profile.py:255-258", "zielen/profile.py:383-402", "docs/templates/config-template:27-31"]}
{"id": "C91", "title": "The exclude file excludes what the manual says", "statement": "A path of the sync directory is matched by the exclude file exactly if a line that is neither a comment nor blank matches it, by the rules of zielen(1): an asterisk matches anything up to a slash, a double asterisk anything including slashes, a question mark one character, brackets one of the characters in them, names that start with a dot only if the pattern has the dot; a line that ends with a slash matches directories only, a line that starts with a slash matches from the root of the sync directory, any other line the end of a path anywhere in the tree. The file given to init with --exclude has the same meaning as the file of the profile.", "quantifier": "for all file systems, sync directories, exclude files and paths", "why_tests_cant": "There are infinitely many patterns, directory trees and sync directories; a test tries a few patterns in one directory with a harmless name.", "anchors": ["zielen/profile.py:310-404", "docs/zielen.1.rst:112-145"]}
{"id": "C92", "title": "A command line means what it says", "statement": "Every command line that can be read by the help pages and the usual conventions (long options, which may be shortened while they are unambiguous; values in the next word or after an equals sign; joined short options; `--`) runs exactly the command that it asks for, with the options, values and operand that it gives; no command line can be read in two ways; and no command is run that the line does not ask for.", "quantifier": "for all command lines, all ways to write the options, and all results of the commands", "why_tests_cant": "There are infinitely many command lines; abbreviations, clusters, values and `--` interact, and the parser of the global options sees the words of the command too.", "anchors": ["zielen/cli.py:208-252", "zielen/cli.py:295-310", "zielen/cli.py:255-276"]}
{"id": "C93", "title": "A profile can be used under the name with which it was made", "statement": "If a name is accepted for a new profile, every other command can be given that name in the same plain way, and the sync that the daemon starts for it is a sync of that profile.", "quantifier": "for all names that are accepted", "why_tests_cant": "The check of the name and the parsing of the command line are in different places, and the daemon builds the command line itself; tests use a few ordinary names.", "anchors": ["zielen/commands/init.py:77-82", "zielen/daemon.py:178-186", "zielen/cli.py:208-252"]}
{"id": "C94", "title": "The exit status and the messages tell how the command ended", "statement": "The program exits with status 0 only if the command was run without an error or the program printed a page that the command line asks for; otherwise the status is 1 and there is either an error message or, with `--debug`, a stack trace. A global option that asks for a page is obeyed.", "quantifier": "for all command lines and all ways a command can end", "why_tests_cant": "Scripts and the daemon rely on the status for every command line; a test suite tries a few.", "anchors": ["zielen/cli.py:255-276", "zielen/cli.py:168-205"]}
{"id": "C95", "title": "init asks exactly for the options that are missing and uses each accepted answer", "statement": "`init` asks for LocalDir, RemoteDir and StorageLimit, in this order, leaving out those for which the template has a value. It repeats a question until a typed line, without the space around it, is a valid value. The new config file has these answers, the values of the template (without a template: the documented defaults), and nothing else; without a template it is accepted by the later commands. If the template is not valid nothing is asked and the errors are reported; if the input ends before all questions are answered, no config file is written. If nothing is missing, the outcome does not depend on the input.", "quantifier": "for all texts of the template and of the standard input", "why_tests_cant": "The texts are arbitrary: line ends of three kinds, Unicode space, repeated keys, comments, answers that look like assignments.", "anchors": ["zielen/profile.py:984-1006", "zielen/profile.py:109-123", "zielen/containerbase.py:49-85", "docs/templates/config-template"]}
{"id": "C96", "title": "Wherever an initialisation is killed, the database it leaves is complete or absent", "statement": "Making the remote directory's `.zielen/remote.db` takes several steps: the file appears empty and then gets its three tables one after the other. Whenever `zielen init` ends or is killed, the file is either absent or has all its tables, so that running `init` again picks up the work: no point of interruption leaves a remote directory with which every later `init` fails.", "quantifier": "for all profiles, options, states of both directories, and all points at which the process is killed; and for all sequences of later initialisations", "why_tests_cant": "The window is a few statements long, lies between two library calls, and needs the process to die exactly there; the consequence shows only in later runs.", "anchors": ["zielen/userdata.py:168-176", "zielen/userdata.py:263-308", "zielen/containerbase.py:140-156", "zielen/commands/init.py:108-172"]}
{"id": "C97", "title": "An initialisation that is not interrupted succeeds, however often it was interrupted before", "statement": "`zielen initialize` of a new profile raises no exception of the file system if nobody else works on the files. If it is killed at any point and run again, any number of times, the first run that is not killed succeeds; then every local file that was not excluded is in the remote directory and linked to, and with `--add-remote` every file of the remote directory is linked to from the local directory.", "quantifier": "for all directory trees, exclude patterns and sequences of crash points", "why_tests_cant": "a test interrupts an initialisation of one small tree at a few points, not every tree at every sequence of points", "anchors": ["zielen/commands/init.py:108-172", "zielen/filelogic.py:430-499", "zielen/fstools.py:33-179"]}
{"id": "C98", "title": "Every command ends, and succeeds if it is left alone and the files are in order", "statement": "Whatever the files and the databases are, a sync, an initialisation, a reset and the emptying of the trash make a finite number of changes and then end with a result or an exception; interrupting one later than that has no effect. So where the other properties say that a command that is not killed succeeds, a command that is not interrupted does succeed.", "quantifier": "for all file systems, databases and configurations", "why_tests_cant": "a test that runs to its end shows that one run ends; a loop that does not end for some input shows as a hanging test at best", "anchors": ["zielen/commands/sync.py:59-141", "zielen/commands/init.py:108-172", "zielen/commands/reset.py:44-109", "zielen/commands/emptytrash.py:36-51", "zielen/fstools.py:33-179"]}
{"id": "C99", "title": "The trash keeps what was deleted for TrashCleanupPeriod days", "statement": "With UseTrash=yes, when the user has deleted a file of which the local directory had only a link, then after the next successful sync the remote file is in the trash directory, with its content, its age counted from the deletion, and nothing that was in the trash is overwritten. However a sync ends, it removes nothing from the trash that is younger than TrashCleanupPeriod days, and a successful sync leaves nothing there that is older. With a negative period nothing is ever removed.", "quantifier": "all states in which a sync can start, all values of the two options that the config check accepts, all points at which the sync can be killed", "why_tests_cant": "It is about what every step of a whole sync (deletion, conflicts, copying in both directions, clean-up) does to one directory, with all clocks, names in the trash and crash points; a unit test looks at trash_files and cleanup_trash alone and with one value of the options.", "anchors": ["zielen/commands/sync.py:59-141", "zielen/filelogic.py:655-752", "zielen/filelogic.py:809-892", "zielen/profile.py:246-265"]}
{"id": "C100", "title": "A sync obeys the options written in the config file", "statement": "A sync with an error in the config file changes nothing. Otherwise it uses the directories that LocalDir and RemoteDir name, also when they are given from the home directory; it leaves no more in the local directory than StorageLimit says; it puts what was deleted into the trash if UseTrash says so or is not set, and puts nothing there if UseTrash says no; and it leaves nothing in the trash that is older than TrashCleanupPeriod says, or than 30 days if that is not set.", "quantifier": "every text of a config file, every file system, every database, every clock", "why_tests_cant": "The options are read by one module, checked by a second, converted by a third and used by a fourth; unit tests look at each with a few values, and none of them starts from the text of a config file and looks at the directories after a sync.", "anchors": ["zielen/profile.py:208-280", "zielen/profile.py:830-985", "zielen/commandbase.py:97-112", "zielen/commands/sync.py:59-141"]}
{"id": "C101", "title": "After a sync the local directory has the files that are used most", "statement": "After a sync without an error, if the local directory has a copy of a file, and does not have the whole of a directory with this file, then it has a copy of every other file that counts for more (by its priority, or with AccountForSize by its priority per byte) and is not larger. A file that is only a link does not fit: with it, the local directory would take as much space as StorageLimit allows or more.", "quantifier": "every state of the two directories and the databases from which a sync succeeds, every limit, every order of iteration", "why_tests_cant": "The choice of the files is tested alone; that it is made from the sizes that the remote directory has after the upload, that priorities are not changed afterwards and that exactly the chosen files are copied depends on the whole sync.", "anchors": ["zielen/filelogic.py:184-358", "zielen/filelogic.py:360-414", "zielen/commands/sync.py:104-141"]}
{"id": "C102", "title": "A sync does not forget how often a file was used", "statement": "After a sync that has succeeded, every file that the profile knew and that both directories had has the priority that it had before.", "quantifier": "every state of the two directories and the databases, every file", "why_tests_cant": "the rows are removed, added again and recomputed in six places of a sync; whether a priority survives depends on all the other files", "anchors": ["zielen/commands/sync.py: SyncCommand.main", "zielen/profile.py: ProfileDBFile.add_paths, update_paths, rm_paths, _update_priority", "zielen/commands/sync.py: handle_conflicts"]}
{"id": "C103", "title": "Deleting a link moves the file to the trash", "statement": "A link by which the client stands in for a remote file is never recorded as a local copy: after a successful sync, wherever the local directory has a link that leads out of it and the remote directory has a regular file, the profile records that the file is not kept locally, given that this was so before the sync. Hence, with UseTrash, if the user deletes such a link, the next successful sync moves the remote file into the trash with its content instead of deleting it.", "quantifier": "For all states in which a sync can start, all sets of links, files, conflicts, deletions and selections, all paths, all storage limits, and any second sync that starts with the profile that the first one left.", "why_tests_cant": "A test looks at one file that becomes a link. The record must survive every combination of what a sync does with the rows (new files, deletions, conflict copies, uploads, changes of the selection, recomputed directories), and the loss shows only in the sync after the next.", "anchors": ["zielen/commands/sync.py:59-141", "zielen/filelogic.py:360-414", "zielen/filelogic.py:655-752", "zielen/profile.py:556-640"]}
{"id": "C104", "title": "A running daemon follows the config file", "statement": "While the daemon runs, the config file may be edited. From the next time that the daemon reads it, a sync is started when the number of minutes in SyncInterval has passed since the end of the last one, and the priorities are halved in the number of hours in PriorityHalfLife. An option that is not set has its default. If the file has an error the daemon ends, with an error, and starts no more syncs.", "quantifier": "all sequences of reads of any config files, adjustments and checks of the daemon; all texts, times and values", "why_tests_cant": "the texts, their order and the times of the checks are unbounded, and the daemon keeps options from texts that are no longer in the file", "anchors": ["zielen/daemon.py:70-75", "zielen/daemon.py:141-196", "zielen/profile.py:84-93", "zielen/profile.py:241-258", "zielen/containerbase.py:49-60"]}
{"id": "C105", "title": "The syncs of the daemon go on while the config file is read again", "statement": "The main thread of the daemon reads the config file again every few seconds, line by line, while another thread decides when a sync is due. At every moment this thread uses a SyncInterval from the config file, old or new, so that syncs are never closer than the smallest interval that was ever set, and as long as all config files that are read are valid it goes on starting syncs.", "quantifier": "all interleavings of the two threads, all contents of the config file and all times", "why_tests_cant": "the threads can be interleaved at every line of the file, and a test cannot choose the interleaving", "anchors": ["zielen/daemon.py:70-75", "zielen/daemon.py:141-196", "zielen/containerbase.py:49-60", "zielen/profile.py:84-93", "zielen/profile.py:241-244"]}
