# Formal model of zielen (lostatc/retain-sync)

zielen keeps a *local* directory in step with a *remote* one. Files with a high priority stay in the local
directory as copies, the others become symbolic links to the remote copy. This document says what is modelled,
how each property of `properties.jsonl` is treated and what has to be trusted.

## Trusted base

* The Lean 4 kernel. There is no `sorry`, `admit`, added axiom, `native_decide` or `bv_decide`.
* The axioms of the property theorems (the theorems named in `MANIFEST.json`):
* `Classical.choice`, `Quot.sound`, `propext`: 404 theorems, all not listed below
* `propext`: `C10_batch_fails`, `C10_absent_fails`, `C26_nonlink_safe`, `C26_absolute_unsafe`, `C40_released`, `C41_lastSync_fails`, `C41_lastAdjust_fails`, `C41_values`, `C49_path_never`, `C49_name_partial`, `C74_two_slashes_fails`, `C75_fails`
* `Quot.sound`, `propext`: `C10_remove_fails`, `C16_remote`, `C17_remote`, `C18_local_partial`, `C18_remote_partial`, `C18_trash_partial`, `C18_raises_iff`, `C30_stale`, `C41_fails`, `C41_pass_partial`, `C41_locked`, `C42_spaced_partial`, `C42_sublist`, `C47_complete`, `C47_nodup`, `C47_leaf_to_trunk`, `C48_init`, `C48_res`, `C48_mod`, `C65_value_partial`, `C73_started`, `C73_spacing_partial`, `C73_prompt_partial`, `C73_clock_fails`, `C75_lookup`, `C80_name`, `C82_done`, `C89_nolinks_partial`, `C91_class`, `C91_class_neg`, `C91_negated`, `C91_unclosed`
* no axiom: `C42_fails`, `C73_exact`
* The model definitions mirror the Python code. Each cites the lines it models and says what it leaves out.
  Nothing checks them against the code mechanically; this correspondence is by reading.
* Behaviour of the Python standard library, SQLite and the system calls is modelled from documentation and from
  the library source (`posixpath.py`, `shutil.py`, `datetime.py`), as described in the comments.

## What is modelled

| File of the program | Modelled in | Not modelled |
|---|---|---|
| `zielen/utils.py` | `Utils`, `BoxTable`, `Timestamp`, `Progress`, `ProgressLine`, `XdgPaths` (completion) | line editing, `shell_cmd`, `FactoryDict`, `DictProperty` |
| `zielen/fstools.py` | `FSTools`, `DeepFS`, `Symlink`, `Progress`, `CheckDir` | permissions |
| `zielen/containerbase.py` | `Config`, `Text`, `Json`, `InfoFile`, `InfoRace`, `DB` | I/O errors, locking inside SQLite |
| `zielen/profile.py` | `Config` (options), `Prompt` (questions), `Timestamp` and `InfoFile` (info file), `DB`/`ADB` (database), `World` (exclude files), `Glob` (patterns), `HalfLife`, `Lifecycle` (the profile directory) | in `World` what a glob pattern matches is a parameter |
| `zielen/userdata.py` | `World` (scans), `DB`/`ADB`, `FilesManager`, `RemoteFile` (how the database file is made) | `du` of directories that appear between two scans, the generation of ids |
| `zielen/filelogic.py` | `PathsDiff`, `Prioritize`, `Diff`, `FilesManager`, `Space` | |
| `zielen/commands/*.py` | `Commands`, `CheckDir`, `Space`, `InitWhole`, `Profiles`, `ListCommand`, `Overlap`, `Lifecycle` | reading answers, the systemd calls of init and reset |
| `zielen/commandbase.py` | `Lock`, `Overlap` (`select_profile`), `Lifecycle` (`setup_profile`) | |
| `zielen/daemon.py` | `Daemon`, `Schedule`, `Watch`, `InfoRace` | inotify itself (event streams are arbitrary), the child process that syncs |
| `zielen/paths.py` | `XdgPaths` | the data and runtime directories |
| `zielen/cli.py`, `zielen/exceptions.py` | `CommandLine` (parsers, `def_command`, `main`), `Argparse` (the library, Python 3.11), `Signal` (signals during init) | texts of the help pages and messages; how exceptions other than `ProgramError` look |

## Layers

| Layer | Modules | What is in it |
|---|---|---|
| Text and paths | `Text`, `PosixPath`, `Path` | Python text, `posixpath` at the level of characters; relative paths as lists of components and the bridge between the two |
| Pure helpers | `Sort`, `Utils`, `PathsDiff`, `Config`, `ConfigLemmas`, `Prompt`, `Timestamp`, `TimestampLemmas`, `BoxTable`, `ListCommand`, `Overlap`, `Symlink`, `Json`, `JsonLemmas`, `XdgPaths`, `ProgressLine` | `utils.py`, `paths.py`, config files and options, times, JSON texts, the table of `list`, which local directories `init` accepts |
| Databases | `DB`, `DBAdd`, `DBRefine`, `DBHistory`, `DBHistInv`, `ADB`, `ADBView`, `ALocalInv` | both SQLite schemas as tables of rows (nodes, closure, collisions) with a parametric hash; the abstract tree database that the upper layers use; a refinement proof and invariants over histories |
| Decisions | `Prioritize`, `PrioritizeInv`, `Diff` | `prioritize_dirs`, `prioritize_files`, `compute_added/modified/deleted/stale`, `check_excluded` |
| File system | `FS`, `FSLemmas`, `OSM`, `WP`, `CallLemmas`, `CopyLemmas`, `FSTools`, `SymlinkTree`, `Transfer`, `Remove`, `Rename` | system calls on a finite map from absolute paths to nodes, with errors; programs with exceptions and crash points; a weakest-precondition calculus; `transfer_tree`, `symlink_tree`, `scan_tree` |
| Decay of priorities | `HalfLife` | the factor of an adjustment, and a daemon that an exception ends (C90) |
| Options of the daemon | `DaemonConfig` | SyncInterval and PriorityHalfLife from the texts that the daemon reads again and again (C104) |
| Threads of the daemon | `DaemonThreads` | the checks of one thread between any two lines of the config file that the other one reads (C105) |
| Command line | `Argparse`, `CommandLine`, `CommandLineLemmas`, `CommandLineReads`, `CommandLineOnly`, `CommandLinePages`; the specification is `Spec/Usage` | words to commands, exit status (C92, C93, C94) |
| Exclude patterns | `Glob` | `fnmatch` and `glob` of the library at the level of characters and components, the lines of an exclude file (C91) |
| Links to directories | `DeepFS`, `DeepCommands` | path resolution through any number of links; the commands on top of that, for C89 only |
| State and commands | `World`, `WorldLemmas`, `FilesManager`, `Commands`, `Progress` | file system, working and committed databases, info file, memoized scans; `sync`, `init`, `reset`, `empty-trash`; `sync` and `init` with a progress bar |
| Steps | `TrashName`, `Trash`, `ConflictPath`, `RenameFiles`, `Conflicts`, `SetupLemmas`, `Setup`, `InitRest`, `ResetLemmas`, `UpdateLocal`, `MarkLocal` | what each method of `FilesManager` does |
| A whole sync | `Steady`, `Aged`, `SyncFrame`, `SyncSteps`, `TrashFresh`, `SyncClear`, `SyncConflict`, `SyncUpdate`, `SyncAgree`, `SyncKnown`, `SyncLoss`, `SyncResult`, `SyncSpace`, `Counted`, `SyncRest`, `Saved`, `Configured` | what a sync does, step by step, at every crash point and after success |
| No exceptions | `Safe`, `SafeTree`, `SafeScan`, `SafeClear`, `SafeUpload`, `SafeSelect`, `SafeUpdate`, `SafeSync`, `SyncQuiet`, `SafeInit`, `Ends` | each step of a sync raises nothing in the states of `Spec/Orderly`; a sync leaves such a state |
| Profiles | `Lifecycle`, `Signal`, `InitWhole`, `Profiles`, `RemoteFile` | the files of the profile directory and what init, reset and the other commands do to them, with crash points; what they do to the sync directories is a parameter here; `InitWhole` fills it in; `Profiles` has all profiles of a user |
| Processes | `Lock`, `InfoRace`, `InfoFile`, `Daemon`, `Schedule`, `Watch` | interleavings of lock attempts and of accesses to the info file, the daemon loop, when it starts a sync, which file an event concerns |
| Specifications | `Spec/*` | what the properties mean, without the functions of the model |
| Examples | `ExampleTools`, `ExampleWorlds`, `ExampleSync`, `ExampleOrderly` | concrete states and checks of hypotheses |
| Properties | `Props/*` | one module per property |

A command is a function from the state to a result (a value or an exception) and a state. Every change of the file
system uses one unit of `fuel`; with no fuel left the exception `killed` is raised, which no handler catches. A
theorem about every fuel is a theorem about every point at which the process may be killed. `shutil.copy2` is three
steps (emptying the target, writing it, setting its times), so that a half-written file is one of these points.

## General simplifications

* Python sets, dict views and SQL row orders are lists; the order in which Python iterates over a set is a
  parameter (`Env.order`), so theorems hold for every order.
* Floats (priorities, times) are exact: rationals for priorities and integers for times. Rounding is modelled only
  for the times of the info file (C39).
* Paths are decoded strings. Permissions, ownership, hard links, special files, disk-full errors and changes of
  the trees by others during a command are not modelled (crash points are).
* What a glob pattern matches is a parameter: any set of paths.
* The upper layers use the abstract database, that is, they assume that no two paths have the same 64-bit id
  (C10 says what happens otherwise).
* Contents of files are numbers; sizes are numbers of blocks.
* A path with a symbolic link as an inner component fails, and a link to a directory cannot be listed (the result is
  `unmodelled`), except in `DeepFS` and `DeepCommands`, where paths are resolved as the kernel does (C89).

## The assumptions about the start of a sync

Theorems about a whole sync name their assumptions in one of these structures. All of them are decidable for a
concrete state, and there is an example beside each theorem.

* `SyncReady` (`SyncSteps`): the two directories are apart; what is at a path on both sides is of the same kind;
  a local link over a remote file is the link to this file (`Tidy`); rows in the databases have the kind that the
  files have (`Fit`); the conflict names are free; nothing is memoized.
* `Calm` (`SyncAgree`): in addition, what the database says is what the last sync left, except for the changes
  the sync is to find.
* `Edits` and `Resumes` (`SyncRest`): what may happen between two commands. A successful command leaves the profile
  `AtRest` (`Spec/Agree`), and after such changes `SyncReady` and `Calm` hold again, so they hold at every sync of a
  history of successful commands (C69).
* `Orderly` (`Spec/Orderly`): in addition to `Calm`, one condition for every way found in which a sync raises; each
  names the property that shows the failure. `Tended` and `Quiet` (`SyncQuiet`): what a sync that starts in an orderly
  state leaves, from which the next one is orderly again (C71).

## Properties

| Id | Property | Status |
|---|---|---|
| C01 | Database lists exactly the paths added and not removed | proved |
| C02 | Subtree query returns exactly the subtree | proved |
| C03 | Adding never disturbs what is recorded | proved |
| C04 | A path with sub-paths is a directory | proved |
| C05 | Directory priority is the sum of its children | proved |
| C06 | A directory is flagged local only if everything below it is | proved |
| C07 | Priority increments are exact | proved |
| C08 | Decay scales every priority and keeps the ranking | proved |
| C09 | Adding paths terminates under any hash | proved |
| C10 | Colliding ids never merge two files | partial |
| C11 | New local files start at the top priority | partial |
| C12 | Selection respects the storage limit | proved |
| C13 | Selection does not depend on iteration order | proved |
| C14 | Higher priority wins | proved |
| C15 | Whole directory trees are selected | proved |
| C16 | Detection of additions is exact | proved |
| C17 | Detection of modifications is exact | proved |
| C18 | Deletions are detected at their top-most path, and trash is used for files not kept locally | partial |
| C19 | Conflicts keep both versions | partial |
| C20 | Conflict names are unambiguous | proved |
| C21 | Trashing never overwrites | partial |
| C22 | Trash clean-up deletes only what is old enough | partial |
| C23 | An excluded file leaves the remote only when every client excludes it | proved |
| C24 | Excluded files stay in the local directory | partial |
| C25 | Excluded files and unsafe links are not uploaded | partial |
| C26 | Symbolic link safety is decided correctly | proved |
| C27 | transfer_tree copies content and metadata and nothing else | partial |
| C28 | symlink_tree never replaces existing entries unless told to | proved |
| C29 | After update_local every remote file is reachable locally | partial |
| C30 | Stale files are exactly the known files outside the retained set | proved |
| C31 | A sync touches only remote files it has a reason to touch, at every crash point | partial |
| C32 | An interrupted sync followed by a sync loses no file | partial |
| C33 | A successful sync makes both sides agree | partial |
| C34 | A second sync with nothing changed detects nothing | partial |
| C35 | Config files round-trip | proved |
| C36 | Every accepted storage limit is understood | partial |
| C37 | Every accepted boolean option is understood | partial |
| C38 | Defaults apply exactly to omitted options | proved |
| C39 | Sync times are stored exactly | partial |
| C40 | Commands on one profile exclude each other | proved |
| C41 | The info file never loses an update | partial |
| C42 | Quick successive openings count once | partial |
| C43 | No opening is lost while the database is locked | partial |
| C44 | Initialisation preserves the user's files at every crash point | partial |
| C45 | Reset retrieves every file before clearing the remote | partial |
| C46 | Profiles never overlap | partial |
| C47 | Path ancestry is complete, duplicate-free and leaf-to-trunk | proved |
| C48 | PathsDiff tracks renames | proved |
| C49 | A profile can be selected by its local directory | partial |
| C50 | empty-trash empties exactly the trash | proved |
| C51 | The profile table is always aligned | proved |
| C52 | No space is wasted | proved |
| C53 | Initialisation leaves excluded files alone | partial |
| C54 | Reset never destroys a local file | partial |
| C55 | An interrupted reset can be run again | partial |
| C56 | A sync touches nothing outside the two directories | partial |
| C57 | A missing local directory does not empty the remote one | partial |
| C58 | A missing remote directory changes nothing | proved |
| C59 | The local marks are right | partial |
| C60 | A sync loses no version of a file | partial |
| C61 | Local changes reach the remote directory | partial |
| C62 | Deletions are applied to the other side | partial |
| C63 | A deleted file does not block a profile for good | partial |
| C64 | A profile made from an accepted template can be used | partial |
| C65 | A running daemon uses the config file as it is | partial |
| C66 | An interrupted initialisation can be completed or cancelled | partial |
| C67 | The directories of a profile have passed the checks of init | partial |
| C68 | init leaves an existing profile alone | partial |
| C69 | Profiles that share a remote directory stay in order | partial |
| C70 | Adding a client changes no remote file and links all of them | partial |
| C71 | A sync of a profile that is in order ends without an error | partial |
| C72 | A command does the same at a terminal as elsewhere | partial |
| C73 | The daemon starts a sync when one is due and not before | partial |
| C74 | An opening is counted for the file that was opened | partial |
| C75 | Who reads the info file gets the values of a completed write | partial |
| C76 | What one client changes or deletes reaches the other clients | partial |
| C77 | After a sync the local directory takes no more space than the storage limit | partial |
| C78 | The priority of a directory stays the sum of the priorities of its entries | partial |
| C79 | A sync to which nothing has happened changes nothing | partial |
| C80 | Every profile has a directory of its own | partial |
| C81 | A completed path names the file that was found | proved |
| C82 | The progress bar fills exactly one line of the terminal | partial |
| C83 | A new initialisation that passes its checks loses nothing | partial |
| C84 | An initialisation that is started again and again loses nothing | partial |
| C85 | init and reset copy nothing for which there is no space | partial |
| C86 | A signal while init runs leaves no broken profile | partial |
| C87 | A profile that cannot be used is not in the way of the others | partial |
| C88 | A profile can be given up without losing anything | partial |
| C89 | Symbolic links to directories are treated like any other link | partial |
| C90 | The priority of a file that is not used halves in each half-life | partial |
| C91 | The exclude file excludes what the manual says | partial |
| C92 | A command line means what it says | partial |
| C93 | A profile can be used under the name with which it was made | partial |
| C94 | The exit status and the messages tell how the command ended | partial |
| C95 | init asks exactly for the options that are missing and uses each accepted answer | proved |
| C96 | Wherever an initialisation is killed, the database it leaves is complete or absent | partial |
| C97 | An initialisation that is not interrupted succeeds, however often it was interrupted before | partial |
| C98 | Every command ends, and succeeds if it is left alone and the files are in order | partial |
| C99 | The trash keeps what was deleted for TrashCleanupPeriod days | partial |
| C100 | A sync obeys the options written in the config file | partial |
| C101 | After a sync the local directory has the files that are used most | partial |
| C102 | A sync does not forget how often a file was used | partial |
| C103 | Deleting a link moves the file to the trash | partial |
| C104 | A running daemon follows the config file | partial |
| C105 | The syncs of the daemon go on while the config file is read again | partial |

How they are treated:

* C01-C11: invariants by induction over histories of database calls; refinement of the tables to the abstract
  database; C09, C10 over any hash function.
* C12-C18, C30, C52: the decision functions, both inclusions, loop invariants, independence of the order.
* C19-C29, C50: Hoare-style theorems over the file system programs; crash points included.
* C35-C39, C46-C49, C51: functions on texts, round trips, exact ranges.
* C40-C43, C73, C74: transition systems, all interleavings, arbitrary clocks and event streams.
* C44, C45, C53-C55, C70: initialisation and reset, including crashes and repetitions.
* C24, C25, C31-C34, C56-C63: a whole sync, C63 any number of them. C69: any number of commands of any number of clients, with others emptying the trash or leaving in between.
  C71: absence of exceptions, for any number of syncs. C72: equality of two programs.
* C76: every chain of successful syncs of any clients.
* C77: every successful sync without a conflict with an older local version and without excluded paths that are known
  or in the remote directory; the last two conditions are shown to be needed.
* C64, C65: functions on texts. C75: functions on texts and all interleavings. C66-C68: all sequences of commands on a profile directory, crash points included.

## Where the code does not have the property

A theorem whose name ends in `_fails` gives a concrete state in which the program, as modelled, violates the
property; the `_partial` theorems beside it say what remains true. The notes in `MANIFEST.json` describe each case.
The ones that lose data or make a command unusable:

* C21: two files with the same name that are trashed by one sync overwrite each other.
* C32: a sync copies every file that stays local again, even if nothing has changed. Killed just after it has emptied
  one, it makes the next sync copy the empty file over the remote one.
* C32, C57: a sync that is killed between removing a local file and linking it, or that does not find the local
  directory, makes a sync delete the remote files.
* C32, C71: a sync of a deletion killed between the saving of the two databases makes every later sync raise KeyError.
* C60, C62: a file changed locally and deleted remotely is deleted, and the sync fails with FileNotFoundError.
* C60: of two versions changed in the same second, or if an excluded file lies in a new directory, the remote version
  is overwritten.
* C31, C56, C27, C29: copies are written through symbolic links.
* C54: a reset replaces locally changed files by the older remote ones. C55: a killed reset cannot be repeated.
* C61: a new empty local directory makes every sync fail with KeyError.
* C18: a file that two clients have deleted makes compute_deleted raise KeyError.
* C22: a link in the trash makes every clean-up fail.
* C24, C25: excluded files in directories that are new or deleted are transferred or deleted.
* C11: priorities cannot be inflated in a profile without files, so that no sync succeeds while such a profile has a new
  local file. C36, C37: accepted option values that raise.
* C49: selecting a profile by path raises AttributeError. C40: long profile names cannot be locked.
* C75: killed while it writes the info file, a process leaves a profile that no command can read.
* C41: sync times can go back. C42, C43: openings are counted twice or dropped.
* C73: after the clock has been set back, the daemon does not sync until it is right again. C74: with two leading
  slashes in the local path, an opening ends the daemon or is counted for another file.
* C63: a pattern that matches a link to a deleted remote file makes every sync fail.
* C64: an empty numeric option in a template makes a profile that no command can read. C65: a running daemon keeps
  the value of an option that has been commented out.
* C66: killed at the wrong moment, init leaves a profile that can be neither completed nor removed; reset refuses
  every partial profile. C67: killed at another moment, it leaves a profile that skips the checks. C68: two inits at
  the same time can remove the profile.
* C71: a file deleted on one side and changed on the other, an excluded file deleted by another client, and a conflict
  for whose older version there is no room make this and all later syncs fail. So does a relative link that leads
  nowhere, which init uploads. C72: at a terminal init fails because of such a link.
* C85: the check for space of `init` counts excluded files, and after an interruption counts what has been copied a second
  time, so an initialisation that was possible is refused for good; the one of `reset` counts files that are already local.
* C84: a profile directory left by an `init` that was killed while it created it counts as another profile with the same
  local directory. The next `init` is refused once and removes it.
* C84: killed between writing the info file and committing the database, `init` leaves a profile that counts as
  initialised with an empty database; the next sync replaces remote files by links to themselves and reports no error. A
  refused `init` that is killed before it has removed the new profile is resumed without checks, and overwrites remote
  files.
* C87: one profile directory without a complete config file makes `list` fail for all profiles; one with a config file that
  cannot be read makes every new `init` fail. A killed `init` or a template with an empty value leaves such a profile, and no
  command repairs it.
* C86: a signal in the moment in which the info file is empty leaves a broken profile; one that comes while a refused
  profile is being removed leaves one that is resumed without checks.
* C83: `init` accepts one empty directory as both the local and the remote directory; the next sync deletes every new
  file in it. A remote directory in the local one is accepted too, and every sync fails.
* C70: a resumed `init --add-remote` replaces files that the user has made in the meantime by links.
* C88: a relative link that leads nowhere, which `init` uploads, makes every `reset` fail before it retrieves anything. A
  `reset` by one client leaves the other clients with links that lead nowhere.
* C89: a symbolic link to a directory destroys the files in it: `init` uploads the link, and the next `sync` or `reset`
  removes the remote files through the local link and fails. If the user replaces a directory by a link to a directory
  elsewhere, the next sync can delete and overwrite files there, and reports no error. This is outside the model of the other properties, in which
  such a link gives the result `unmodelled`. Deletions whose paths go through no link are exact whatever links there are.
* C90: `PriorityHalfLife` may be 0 as far as the configuration is concerned; the daemon then divides by zero ten minutes
  after it started and ends, so that nothing is synced automatically any more.
* C91: the path of the sync directory is passed to `glob.glob` without `glob.escape`. If it has a component such as
  `photos[2017]`, no pattern matches anything, and files that the user has excluded are uploaded.
* C92: `zielen reset p -k --` is refused although `--` only ends the options; `zielen sync p --` is accepted.
* C93: the check of profile names accepts names that start with a dash, such as `-x` or `--help`, and
  `zielen init -- -x` makes such a profile. The daemon runs `zielen --debug sync -x`, which is refused as an unknown
  option (or prints the help page), so the profile is never synced in the background.
* C94: `--debug` has no effect on errors in the command line, because `cmd_args` is not bound yet.
* C96: an initialisation killed while `.zielen/remote.db` is being made leaves a file without all its tables. `generate` leaves an existing file alone, so every later `init` with that remote directory stops with an `OperationalError`, until the user deletes the file.
* C97: a local link that leads nowhere and matches an exclude pattern makes every `init` of the profile fail with FileNotFoundError.
* C99: `TrashCleanupPeriod=0` is accepted and turns the clean-up of the trash off, as a negative number does. With `UseTrash=Yes`, which is accepted too, a sync removes the remote file of a deleted link for good.
* C100: with `StorageLimit=10mb`, which is accepted, every sync fails after it has changed the remote directory.
* C101: an empty file makes room for another one in the middle of the selection, so that of two files of the same size the one with the lower priority may be kept.
* C102: a file that has changed on both sides loses its priority: `handle_conflicts` removes its row and the update adds it
  again with the priority 0, so that a file that is used every day may become a link after a conflict.
* C103: a link of the user's own, at a path at which another client adds a file, is recorded as a local copy of that file. When the user deletes their link, the next sync deletes the remote file for good, although UseTrash is set (`C103_own_link_fails`).
* C104: a daemon that is running does not notice that a required option was removed from the config file. It goes on to start syncs, all of which are refused (`C104_missing_fails`).
* C104: if the daemon reads the config file while it is being saved and a part of a line has been written, such as `StorageLimit=1` of `StorageLimit=1 GB`, it ends (`C104_saving_fails`).
* C105: a valid config file that sets SyncInterval twice, first to something that is not a number, can end the thread of the daemon that starts the syncs, without any sign of it: the daemon goes on and never syncs again (`C105_twice_fails`).
* C10: `rm_paths` of a directory together with something in it, as after the deletion of a directory, can set the priority of another file to 0 and record it as not kept locally, if the hashes of the two collide and the directory has been added later (`C10_rm_fails`): the salt of the directory is forgotten before the directories above the removed paths are updated.
