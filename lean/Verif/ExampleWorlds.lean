import Verif.Commands
/-
Small worlds to run the commands on.
-/
namespace Verif

/-- `/l` and `/r` are the local and the remote directory, `/x` is the exclude file. The exclude file with
content 1 excludes everything called `e`. -/
def exEnvE : Env where
  loc := ["l".toList]
  rem := ["r".toList]
  excl := ["x".toList]
  id := "id".toList
  patsOf c := if c = 1 then [fun p => decide (p.getLastD [] = "e".toList)] else []
  stamp _ := "19700101-000000".toList
  order l := l
  useTrash := true
  inflate := false
  accountForSize := false
  storageLimit := 100000
  cleanup := none
  symlinkSize := 0

/-- The directories that every profile has, and the exclude file. -/
def exBase (env : Env) : FS :=
  [(["x".toList], .file 1 1 1), (["l".toList], .dir 1 8), (["r".toList], .dir 1 8), (env.util, .dir 1 8),
    (env.trash, .dir 1 8), (env.exclDir, .dir 1 8)]

/-- A state with the last sync at time 40 and the clock at 50. -/
def exWorld (env : Env) (fs : FS) (db : ALocal) (rdb : ARemote) (fuel : Nat) : World where
  os := ⟨exBase env ++ fs, fuel, 0, fun n => n + 50⟩
  db := db
  dbSaved := db
  rdb := rdb
  rdbSaved := rdb
  last := 40
  lastSaved := 40
  lmemo := []
  rmemo := []
  matches_ := none

/-- A row of the profile's database. -/
def exRow (p : Path) (d : Bool) (prio : Rat) (loc : Bool) : Entry PData := ⟨p, d, ⟨prio, loc⟩⟩

/-- A row of the remote database. -/
def exRRow (p : Path) (d : Bool) : Entry Int := ⟨p, d, 5⟩

/-- The directory `d` with `d/a` is known; `d/e` is excluded; `d` has been deleted in the remote directory. -/
def exExcludedBelow : World := exWorld exEnvE
  [(["l".toList, "d".toList], .dir 3 8), (["l".toList, "d".toList, "e".toList], .file 7 3 1),
    (["l".toList, "d".toList, "a".toList], .file 8 3 1), (["l".toList, "b".toList], .file 9 3 1),
    (["r".toList, "b".toList], .file 9 3 1)]
  [exRow ["d".toList] true 1 true, exRow ["d".toList, "a".toList] false 1 true, exRow ["b".toList] false 1 true]
  [exRRow ["d".toList] true, exRRow ["d".toList, "a".toList] false, exRRow ["b".toList] false] 1000

/-- A new local directory `d` with the excluded file `d/e`. -/
def exNewDir : World := exWorld exEnvE
  [(["l".toList, "d".toList], .dir 45 8), (["l".toList, "d".toList, "e".toList], .file 7 45 1),
    (["l".toList, "b".toList], .file 9 3 1), (["r".toList, "b".toList], .file 9 3 1)]
  [exRow ["b".toList] false 1 true] [exRRow ["b".toList] false] 1000

/-- `a` has been changed locally; the remote `a` is a link to the remote `b`. -/
def exRemoteLink : World := exWorld exEnvE
  [(["l".toList, "a".toList], .file 7 45 1), (["r".toList, "a".toList], .link "b".toList 3),
    (["l".toList, "b".toList], .file 9 3 1), (["r".toList, "b".toList], .file 9 3 1)]
  [exRow ["a".toList] false 1 true, exRow ["b".toList] false 1 true]
  [exRRow ["a".toList] false, exRRow ["b".toList] false] 1000

/-- `a` has been replaced by a link to the remote `b`. -/
def exLocalLink : World := exWorld exEnvE
  [(["l".toList, "a".toList], .link "/r/b".toList 45), (["r".toList, "a".toList], .file 7 3 1),
    (["l".toList, "b".toList], .file 9 3 1), (["r".toList, "b".toList], .file 9 3 1)]
  [exRow ["a".toList] false 1 true, exRow ["b".toList] false 1 true]
  [exRRow ["a".toList] false, exRRow ["b".toList] false] 1000

/-- Nothing has changed, but there is room for one block only. -/
def exTwoFiles (fuel : Nat) : World := exWorld exEnvE
  [(["l".toList, "a".toList], .file 7 3 1), (["r".toList, "a".toList], .file 7 3 1),
    (["l".toList, "b".toList], .file 9 3 1), (["r".toList, "b".toList], .file 9 3 1)]
  [exRow ["a".toList] false 1 true, exRow ["b".toList] false 2 true]
  [exRRow ["a".toList] false, exRRow ["b".toList] false] fuel

end Verif
