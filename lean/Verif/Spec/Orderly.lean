import Verif.SyncAgree
import Verif.Props.C21_Trash
/-
A state in which nothing stands in the way of a sync.
-/
namespace Verif

/-- What is assumed, in addition to `SyncReady` and `Calm`, to show that a sync raises nothing. Each condition names
the failure that it keeps away. -/
structure Orderly (env : Env) (w : World) : Prop extends Calm env w where
  /-- The remote exclude directory exists, and all that is in it are files. -/
  exclDir : w.os.fs.isDir env.exclDir = true
  clients : ∀ c n, w.os.fs.get (env.exclDir ++ [c]) = some n → ∃ k m b, n = .file k m b
  /-- The trash directory is not a file. -/
  trash : ∀ n, w.os.fs.get env.trash = some n → n.isDir = true
  /-- Local links are those that the program has made (C32, C63). -/
  own : ∀ p t m, p ≠ [] → w.os.fs.get (env.loc ++ p) = some (.link t m) → t = absStr (env.rem ++ p)
  /-- The remote directory has no links (C59, C60). -/
  plain : ∀ p n, UserPath p → w.os.fs.get (env.rem ++ p) = some n → n.isLink = false
  /-- A local link leads somewhere, unless the sync notices that its file is gone (C63). -/
  leads : ∀ p t m, p ≠ [] → w.os.fs.get (env.loc ++ p) = some (.link t m) →
    (∃ n, w.os.fs.get (env.rem ++ p) = some n) ∨ (p ∈ ADB.paths w.db ∧ ¬ OwnExcludes env w.os.fs p)
  /-- What was deleted locally is in the remote database (C18). -/
  rows : ∀ p, GoneLocally env w p → p ∈ ADB.paths w.rdb
  /-- What was deleted remotely is not excluded. -/
  kept : ∀ p, GoneRemotely env w p → ¬ OwnExcludes env w.os.fs p
  /-- If new files are to get the highest priority, there is one (C11). -/
  inflate : env.inflate = true → ∃ e ∈ w.db, e.directory = false ∧ ¬ ChangedLocally env w e.path ∧
    (∃ n, w.os.fs.get (env.loc ++ e.path) = some n) ∧ ∃ n, w.os.fs.get (env.rem ++ e.path) = some n
  /-- Nothing was changed on one side that was deleted on the other one (C62). -/
  edited : ∀ f d, ChangedLocally env w f → GoneRemotely env w d → ¬ d <+: f
  fetched : ∀ f, ChangedRemotely env w f → (∃ n, w.os.fs.get (env.rem ++ f) = some n) ∧
    ∀ d, GoneLocally env w d → ¬ d <+: f
  /-- A new local directory has a file in it (C61). -/
  filled : ∀ f, ChangedLocally env w f → w.os.fs.isDir (env.loc ++ f) = true →
    (∃ n, w.os.fs.get (env.rem ++ f) = some n) ∨
      ∃ q n, f <+: q ∧ w.os.fs.get (env.loc ++ q) = some n ∧ n.isDir = false
  /-- Where both sides have changed a file, the local version is not the older one (C71). -/
  newer : ∀ p a b, ChangedLocally env w p → ChangedRemotely env w p → w.os.fs.get (env.loc ++ p) = some a →
    w.os.fs.get (env.rem ++ p) = some b → a.isDir = false → ¬ a.mtime < b.mtime
  /-- Two deleted files do not get the same name in the trash (C21). -/
  names : ∀ p q, GoneLocally env w p → GoneLocally env w q → ¬ p <+: q → ¬ q <+: p →
    ∀ t, TrashTarget env w.os.fs p t → ¬ TrashTarget env w.os.fs q t
  /-- There is no link in the trash if old files are to be removed from it (C22). -/
  tidyTrash : env.cleanup ≠ none → ∀ c n, w.os.fs.get (env.trash ++ [c]) = some n → n.isLink = false

/-- What a sync that starts in an orderly state leaves behind: the directories of the program are in order, local
links are the program's own and lead to a remote file, and the remote directory has no links. -/
structure Tended (env : Env) (fs : FS) : Prop where
  loc_dir : fs.isDir env.loc = true
  no_util : fs.get (env.loc ++ [Env.utilName]) = none
  exclDir : fs.isDir env.exclDir = true
  clients : ∀ c n, fs.get (env.exclDir ++ [c]) = some n → ∃ k m b, n = .file k m b
  trash : fs.isDir env.trash = true
  tidyTrash : env.cleanup ≠ none → ∀ c n, fs.get (env.trash ++ [c]) = some n → n.isLink = false
  plain : ∀ p n, UserPath p → fs.get (env.rem ++ p) = some n → n.isLink = false
  own : ∀ p t m, p ≠ [] → fs.get (env.loc ++ p) = some (.link t m) →
    t = absStr (env.rem ++ p) ∧ ∃ n, fs.get (env.rem ++ p) = some n

end Verif
