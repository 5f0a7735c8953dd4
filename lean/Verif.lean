import Verif.Sort
import Verif.PosixPath
import Verif.Path
import Verif.Utils
import Verif.Symlink
import Verif.Props.C20_ConflictNames
import Verif.Props.C26_SymlinkSafety
import Verif.Props.C47_PathAncestry
import Verif.DB
import Verif.ADB
import Verif.DBRefine
import Verif.ADBView
import Verif.DBAdd
import Verif.DBHistory
import Verif.ALocalInv
import Verif.Spec.History
import Verif.DBHistInv
import Verif.Props.C01_KnownPaths
import Verif.Props.C02_Subtree
import Verif.Props.C03_AddKeeps
import Verif.Props.C04_Directories
import Verif.Props.C05_C06_Aggregates
import Verif.Props.C07_Increment
import Verif.Props.C08_Decay
import Verif.Props.C09_AddTerminates
import Verif.Props.C10_Collisions
import Verif.Props.C10_Batch
import Verif.Props.C10_History
import Verif.Props.C10_Profile
import Verif.Props.C11_Inflate
import Verif.Prioritize
import Verif.PrioritizeInv
import Verif.Spec.Selection
import Verif.Props.C12_SpaceLimit
import Verif.Props.C13_OrderIndependent
import Verif.Props.C14_HigherPriority
import Verif.Props.C15_WholeTrees
import Verif.FS
import Verif.Diff
import Verif.Spec.Changes
import Verif.Props.C16_C17_Changes
import Verif.Props.C18_Deletions
import Verif.Props.C30_Stale
import Verif.PathsDiff
import Verif.Props.C48_PathsDiff
import Verif.Text
import Verif.Config
import Verif.ConfigLemmas
import Verif.Spec.Config
import Verif.Props.C33_Agreement
import Verif.Props.C34_Fixpoint
import Verif.Props.C59_LocalFlag
import Verif.Props.C60_NoLoss
import Verif.Props.C61_Upload
import Verif.Props.C62_Deletions
import Verif.Props.C35_Config
import Verif.Props.C38_Options
import Verif.Props.C36_C37_Values
import Verif.Timestamp
import Verif.TimestampLemmas
import Verif.Props.C39_Timestamp
import Verif.BoxTable
import Verif.ListCommand
import Verif.Props.C51_Table
import Verif.Overlap
import Verif.Props.C46_Overlap
import Verif.Props.C49_Select
import Verif.Lock
import Verif.Props.C40_Lock
import Verif.InfoRace
import Verif.Props.C41_InfoRace
import Verif.Props.C41_Pass
import Verif.Daemon
import Verif.Props.C42_Cooldown
import Verif.Props.C43_Retry
import Verif.OSM
import Verif.FSTools
import Verif.WP
import Verif.FSLemmas
import Verif.CallLemmas
import Verif.SymlinkTree
import Verif.Props.C28_SymlinkTree
import Verif.CopyLemmas
import Verif.Transfer
import Verif.Props.C27_TransferTree
import Verif.World
import Verif.FilesManager
import Verif.Commands
import Verif.Remove
import Verif.Rename
import Verif.WorldLemmas
import Verif.Spec.Excluded
import Verif.Props.C22_CleanupTrash
import Verif.Props.C23_RmExcluded
import Verif.Props.C50_EmptyTrash
import Verif.TrashName
import Verif.Trash
import Verif.Props.C21_Trash
import Verif.ExampleWorlds
import Verif.ConflictPath
import Verif.Props.SyncWitnesses
import Verif.Props.C32_Copy
import Verif.Saved
import Verif.Props.C32_Interrupted
import Verif.Props.C32_Directory
import Verif.Props.C32_Stuck
import Verif.RenameFiles
import Verif.Conflicts
import Verif.Props.C19_Conflicts
import Verif.SetupLemmas
import Verif.Setup
import Verif.Props.C44_Init
import Verif.ExampleTools
import Verif.ResetLemmas
import Verif.Props.C45_Reset
import Verif.UpdateLocal
import Verif.Props.C29_UpdateLocal
import Verif.Steady
import Verif.SyncFrame
import Verif.Spec.Sync
import Verif.SyncSteps
import Verif.TrashFresh
import Verif.SyncClear
import Verif.SyncConflict
import Verif.SteadySync
import Verif.SyncUpdate
import Verif.SyncAgree
import Verif.SyncTrace
import Verif.SyncAgain
import Verif.SyncKnown
import Verif.SyncLoss
import Verif.SyncResult
import Verif.Aged
import Verif.MarkLocal
import Verif.MarkLocal
import Verif.ExampleSync
import Verif.Props.C63_DanglingExclude
import Verif.Lifecycle
import Verif.Props.C64_Template
import Verif.Props.C65_Reread
import Verif.Props.C66_Lifecycle
import Verif.Props.C67_Checks
import Verif.Props.SyncEffects
import Verif.Props.Unmounted
import Verif.Spec.Agree
import Verif.Counted
import Verif.SyncRest
import Verif.InitRest
import Verif.Props.C70_AddRemote
import Verif.Props.C69_History
import Verif.Props.C69_Meanwhile
import Verif.Safe
import Verif.Props.C71_Conflict
import Verif.SafeTree
import Verif.Spec.Orderly
import Verif.SafeScan
import Verif.SafeClear
import Verif.SafeUpload
import Verif.SafeSelect
import Verif.SafeUpdate
import Verif.SafeSync
import Verif.SyncQuiet
import Verif.ExampleOrderly
import Verif.Props.C71_Progress
import Verif.Progress
import Verif.Props.C72_Progress
import Verif.Schedule
import Verif.Props.C73_Schedule
import Verif.Watch
import Verif.Props.C74_Watch
import Verif.Json
import Verif.JsonLemmas
import Verif.InfoFile
import Verif.Props.C75_InfoFile
import Verif.Props.C76_Relay
import Verif.SyncSpace
import Verif.Props.C77_Storage
import Verif.Props.C78_PrioritySums
import Verif.Props.C79_Again
import Verif.XdgPaths
import Verif.ProgressLine
import Verif.Props.C80_ProfileDir
import Verif.Props.C81_ContractUser
import Verif.Props.C82_ProgressLine
import Verif.CheckDir
import Verif.Props.C83_NewInit
import Verif.Signal
import Verif.InitWhole
import Verif.Props.C84_WholeInit
import Verif.Space
import Verif.Props.C85_Space
import Verif.Props.C86_Signals
import Verif.Props.C86_Mixed
import Verif.Profiles
import Verif.Props.C87_Profiles
import Verif.SafeReset
import Verif.Props.C88_RoundTrip
import Verif.DeepFS
import Verif.DeepCommands
import Verif.Props.C89_DirLinks
import Verif.Props.C89_Remove
import Verif.Props.C89_Direct
import Verif.Props.C89_Trash
import Verif.Props.C89_Clean
import Verif.Props.C89_Clear
import Verif.Props.C89_Reset
import Verif.HalfLife
import Verif.DaemonConfig
import Verif.Props.C90_HalfLife
import Verif.Glob
import Verif.Spec.Shell
import Verif.Props.C91_Patterns
import Verif.Props.C91_Sets
import Verif.Props.C91_Classes
import Verif.Props.C91_Shell
import Verif.Argparse
import Verif.CommandLine
import Verif.Spec.Usage
import Verif.CommandLineLemmas
import Verif.CommandLineReads
import Verif.CommandLineOnly
import Verif.CommandLinePages
import Verif.Props.C92_CommandLine
import Verif.Props.C93_ProfileNames
import Verif.Props.C94_ExitStatus
import Verif.Prompt
import Verif.Spec.Dialogue
import Verif.Props.C95_Prompt
import Verif.RemoteFile
import Verif.Props.C96_RemoteFile
import Verif.SafeInit
import Verif.Props.C97_InitSucceeds
import Verif.Ends
import Verif.Props.C98_Ends
import Verif.Props.C99_Trash
import Verif.Configured
import Verif.Props.C100_Configured
import Verif.Props.C101_Ranking
import Verif.Props.C102_Priorities
import Verif.Props.C103_Links
import Verif.Props.C103_History
import Verif.Props.C104_DaemonConfig
import Verif.Props.C104_Spacing
import Verif.DaemonThreads
import Verif.Props.C105_Threads
import Verif.Props.C104_Saving
import Verif.Props.C100_Priorities
import Verif.Props.C11_Sync
