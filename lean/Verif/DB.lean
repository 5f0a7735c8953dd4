import Verif.Utils
/-
The two SQLite databases of zielen as tables of rows
(zielen/containerbase.py:113-223, zielen/profile.py:441-830,
zielen/userdata.py:252-507).

Paths are component lists; the text that is hashed is `toStr path`. The hash
(first eight bytes of SHA-256) is a parameter `h : Str → Int`. A Python set of
paths is a list without duplicates in arbitrary order.
-/
namespace Verif

/-- A row of the `nodes` table. `data` holds the columns that differ between
the two databases: `(priority, local)` (zielen/profile.py:472-479) or
`lastsync` (zielen/userdata.py:285-291). -/
structure Row (δ : Type) where
  id : Int
  path : Path
  directory : Bool
  data : δ
deriving DecidableEq, Repr

/-- A row of the `closure` table (zielen/profile.py:481-490). -/
structure Clo where
  anc : Int
  desc : Int
  depth : Nat
deriving DecidableEq, Repr

/-- The three tables (zielen/containerbase.py:119-130). -/
structure DB (δ : Type) where
  nodes : List (Row δ)
  closure : List Clo
  coll : List (Path × Str)

/-- The columns `priority` and `local` of the profile database; priorities are
exact rationals instead of floats. -/
structure PData where
  priority : Rat
  loc : Bool
deriving DecidableEq, Repr

namespace DB
variable {δ : Type}

/-- A new database (zielen/profile.py:449-497, zielen/userdata.py:263-309). -/
def empty : DB δ := ⟨[], [], []⟩

/-- The hash text and id of a path: zielen/containerbase.py:189-215. -/
def getPathId (h : Str → Int) (coll : List (Path × Str)) (p : Path) : Int :=
  match coll.find? (fun e => decide (e.1 = p)) with
  | none => h (toStr p)
  | some e => h (toStr p ++ e.2)

/-- `INSERT INTO nodes` with `PRIMARY KEY (id) ON CONFLICT IGNORE`. -/
def insertNode (r : Row δ) (ns : List (Row δ)) : List (Row δ) :=
  if ns.any (fun n => decide (n.id = r.id)) then ns else ns ++ [r]

/-- `INSERT INTO closure` with `PRIMARY KEY (ancestor, descendant) ON CONFLICT
IGNORE`. The foreign keys never fail here, because the id was inserted into
`nodes` or was already there. -/
def insertClo (c : Clo) (cs : List Clo) : List Clo :=
  if cs.any (fun e => decide (e.anc = c.anc ∧ e.desc = c.desc)) then cs else cs ++ [c]

/-- The `INSERT INTO closure ... SELECT ... UNION ALL` statement for one path
(zielen/profile.py:622-628); the rows are selected before any is inserted. -/
def insertClosure (cs : List Clo) (pathId parentId : Int) : List Clo :=
  (((cs.filter (fun c => decide (c.desc = parentId))).map
    (fun c => Clo.mk c.anc pathId (c.depth + 1))) ++ [Clo.mk pathId pathId 0]).foldl
    (fun acc c => insertClo c acc) cs

/-- One path of the `INSERT INTO collisions` statement
(zielen/profile.py:607-613). `salt p` is what `gen_salt()` returns for it. -/
def insertColl (ns : List (Row δ)) (salt : Path → Str) (p : Path) (pid : Int)
    (coll : List (Path × Str)) : List (Path × Str) :=
  if ns.any (fun n => decide (n.id = pid ∧ n.path ≠ p)) then
    if coll.any (fun e => decide (e.1 = p)) then coll else coll ++ [(p, salt p)]
  else coll

/-- One round of the `while True` loop (zielen/profile.py:578-615): the ids are
computed for all paths, then the statement runs for all of them. -/
def collRound (h : Str → Int) (salt : Path → Str) (ns : List (Row δ)) (paths : List Path)
    (coll : List (Path × Str)) : List (Path × Str) :=
  (paths.map (fun p => (p, getPathId h coll p))).foldl
    (fun acc pi => insertColl ns salt pi.1 pi.2 acc) coll

/-- The `while True` loop; it ends when a round inserted no row
(`rowcount <= 0`). `fuel` bounds the rounds, see `C09`. -/
def collLoop (h : Str → Int) (salt : Path → Str) (ns : List (Row δ)) (paths : List Path) :
    Nat → List (Path × Str) → List (Path × Str)
  | 0, coll => coll
  | fuel + 1, coll =>
    let coll' := collRound h salt ns paths coll
    if coll'.length = coll.length then coll' else collLoop h salt ns paths fuel coll'

/-- `paths.sort(key=lambda x: x.count(os.sep))` (zielen/profile.py:576). -/
def sortDepth {α : Type} (f : α → Path) (l : List α) : List α :=
  sortBy (fun a b => decide ((f a).length ≤ (f b).length)) l

/-- The set `parents` built at zielen/profile.py:583-587. -/
def parentsOf (paths : List Path) : List Path :=
  paths.foldl (fun acc p => if p.dropLast ≠ [] then setAdd p.dropLast acc else acc) []

/-- `_mark_directory` (zielen/containerbase.py:174-187). -/
def markDirectory (h : Str → Int) (db : DB δ) (paths : List Path) : DB δ :=
  (paths.map (getPathId h db.coll)).foldl (fun db pid =>
    { db with nodes := db.nodes.map (fun n =>
        if n.directory = false ∧ n.id = pid then { n with directory := true } else n) }) db

/-- The part of `add_paths` that both databases share
(zielen/profile.py:573-629, zielen/userdata.py:326-382). `batch` is
`files | dirs` in the order Python's set yields, each path with
`path in dirs`. -/
def addCore (h : Str → Int) (salt : Path → Str) (db : DB δ) (batch : List (Path × Bool))
    (data : δ) : DB δ :=
  let batch := sortDepth Prod.fst batch
  let paths := batch.map Prod.fst
  let coll := collLoop h salt db.nodes paths (paths.length + 1) db.coll
  let id := getPathId h coll
  let nodes := batch.foldl (fun ns e => insertNode ⟨id e.1, e.1, e.2, data⟩ ns) db.nodes
  let closure := paths.foldl (fun cs p =>
    insertClosure cs (id p) (if p.dropLast ≠ [] then id p.dropLast else id p)) db.closure
  markDirectory h ⟨nodes, closure, coll⟩ (parentsOf paths)

/-- `DELETE FROM nodes WHERE id IN (...)` for one path with the cascade of the
foreign keys (zielen/profile.py:714-722). -/
def deleteTree (db : DB δ) (pid : Int) : DB δ :=
  let dead := (db.closure.filter (fun c => decide (c.anc = pid))).map Clo.desc
  { db with
    nodes := db.nodes.filter (fun n => decide (n.id ∉ dead))
    closure := db.closure.filter (fun c => decide (c.anc ∉ dead ∧ c.desc ∉ dead)) }

/-- The part of `rm_paths` that both databases share (zielen/profile.py:708-728,
zielen/userdata.py:427-447). -/
def rmCore (h : Str → Int) (db : DB δ) (paths : List Path) : DB δ :=
  let db' := (paths.map (getPathId h db.coll)).foldl deleteTree db
  { db' with coll := db'.coll.filter (fun e => decide (e.1 ∈ db'.nodes.map Row.path)) }

/-- `UPDATE nodes SET ... WHERE id = :path_id` for each path. -/
def updateWhere (h : Str → Int) (db : DB δ) (paths : List Path) (f : Row δ → Row δ) : DB δ :=
  (paths.map (getPathId h db.coll)).foldl (fun db pid =>
    { db with nodes := db.nodes.map (fun n => if n.id = pid then f n else n) }) db

/-- `if value is not None:` around such an update. -/
def updateOpt {α : Type} (h : Str → Int) (db : DB δ) (paths : List Path) (o : Option α)
    (f : α → Row δ → Row δ) : DB δ :=
  match o with
  | none => db
  | some v => updateWhere h db paths (f v)

/-- `get_path_info` (zielen/profile.py:732-755, zielen/userdata.py:449-469). -/
def getPathInfo (h : Str → Int) (db : DB δ) (p : Path) : Option (Bool × δ) :=
  (db.nodes.find? (fun n => decide (n.id = getPathId h db.coll p))).map
    (fun n => (n.directory, n.data))

/-- The query of `get_paths` (zielen/profile.py:778-795,
zielen/userdata.py:490-507) before the filters on the columns; an empty root
means no restriction. The result is a dict; the model returns the rows, whose
paths are distinct (`C01_nodup`). -/
def getRows (h : Str → Int) (db : DB δ) (root : Path) : List (Row δ) :=
  db.nodes.filter (fun n => db.closure.any (fun c =>
    decide (c.desc = n.id ∧ (root = [] ∨ c.anc = getPathId h db.coll root))))

/-- The immediate children the sub-queries of `_update_priority` and
`_update_local` range over (zielen/profile.py:519-524). -/
def childRows (db : DB δ) (pid : Int) : List (Row δ) :=
  db.nodes.filter (fun n => db.closure.any (fun c =>
    decide (c.anc = pid ∧ c.desc = n.id ∧ c.depth = 1)))

/-- `executemany` of an aggregate update over `get_path_ancestry(paths)`
(common part of zielen/profile.py:499-554). -/
def updateAgg (h : Str → Int) (agg : List δ → δ → δ) (db : DB δ) (paths : List Path) : DB δ :=
  ((pathAncestry paths).map (getPathId h db.coll)).foldl (fun db pid =>
    { db with nodes := db.nodes.map (fun n =>
        if n.id = pid then { n with data := agg ((childRows db pid).map Row.data) n.data }
        else n) }) db

end DB

/-- `COALESCE(SUM(n.priority), 0)` (zielen/profile.py:519). -/
def aggPriority (children : List PData) (old : PData) : PData :=
  { old with priority := (children.map PData.priority).sum }

/-- `COALESCE(MIN(n.local), 0)` (zielen/profile.py:547). -/
def aggLocal (children : List PData) (old : PData) : PData :=
  { old with loc := !children.isEmpty && children.all PData.loc }

/-- The profile database. -/
abbrev LocalDB := DB PData

namespace LocalDB

/-- `_update_priority` (zielen/profile.py:499-526). -/
def updatePriority (h : Str → Int) (db : LocalDB) (paths : List Path) : LocalDB :=
  DB.updateAgg h aggPriority db paths

/-- `_update_local` (zielen/profile.py:528-554). -/
def updateLocal (h : Str → Int) (db : LocalDB) (paths : List Path) : LocalDB :=
  DB.updateAgg h aggLocal db paths

/-- `add_paths` (zielen/profile.py:556-631). -/
def addPaths (h : Str → Int) (salt : Path → Str) (db : LocalDB) (batch : List (Path × Bool))
    (priority : Rat) (loc : Bool) : LocalDB :=
  let parents := DB.parentsOf ((DB.sortDepth Prod.fst batch).map Prod.fst)
  updateLocal h (updatePriority h (DB.addCore h salt db batch ⟨priority, loc⟩) parents) parents

/-- `SELECT MAX(priority) FROM nodes WHERE directory = 0`; `none` is NULL. -/
def maxPriority (db : LocalDB) : Option Rat :=
  ((db.nodes.filter (fun n => !n.directory)).map (fun n => n.data.priority)).max?

/-- `add_inflated` (zielen/profile.py:633-645). `none` is the
`sqlite3.IntegrityError` that inserting a NULL priority raises. -/
def addInflated (h : Str → Int) (salt : Path → Str) (db : LocalDB) (batch : List (Path × Bool)) :
    Option LocalDB :=
  match maxPriority db with
  | some m => some (addPaths h salt db batch m true)
  | none => if batch.isEmpty then some (addPaths h salt db batch 0 true) else none

/-- `update_paths` (zielen/profile.py:647-695). -/
def updatePaths (h : Str → Int) (db : LocalDB) (paths : List Path) (directory : Option Bool)
    (priority : Option Rat) (loc : Option Bool) : LocalDB :=
  let db := DB.updateOpt h db paths directory (fun d n => { n with directory := d })
  let db := DB.updateOpt h db paths priority
    (fun x n => { n with data := { n.data with priority := x } })
  let db := DB.updateOpt h db paths loc (fun b n => { n with data := { n.data with loc := b } })
  let parents := DB.parentsOf paths
  updateLocal h (updatePriority h db parents) parents

/-- `rm_paths` (zielen/profile.py:697-730). -/
def rmPaths (h : Str → Int) (db : LocalDB) (paths : List Path) : LocalDB :=
  let parents := DB.parentsOf paths
  updateLocal h (updatePriority h (DB.rmCore h db paths) parents) parents

/-- `get_paths` (zielen/profile.py:757-795). -/
def getPaths (h : Str → Int) (db : LocalDB) (root : Path) (directory loc : Option Bool) :
    List (Row PData) :=
  (DB.getRows h db root).filter (fun n =>
    decide ((directory = none ∨ directory = some n.directory) ∧
      (loc = none ∨ loc = some n.data.loc)))

/-- `increment` (zielen/profile.py:797-819). -/
def increment (h : Str → Int) (db : LocalDB) (paths : List Path) (x : Rat) : LocalDB :=
  updatePriority h
    (DB.updateWhere h db paths
      (fun n => { n with data := { n.data with priority := n.data.priority + x } }))
    (DB.parentsOf paths)

/-- `adjust_all` (zielen/profile.py:821-830). -/
def adjustAll (db : LocalDB) (c : Rat) : LocalDB :=
  { db with nodes := db.nodes.map (fun n =>
      { n with data := { n.data with priority := n.data.priority * c } }) }

end LocalDB

/-- The remote database; `lastsync` is an integer number of clock ticks. -/
abbrev RemoteDB := DB Int

namespace RemoteDB

/-- `add_paths` (zielen/userdata.py:311-382); `now` is `time.time()`. -/
def addPaths (h : Str → Int) (salt : Path → Str) (db : RemoteDB) (batch : List (Path × Bool))
    (now : Int) : RemoteDB := DB.addCore h salt db batch now

/-- `update_paths` (zielen/userdata.py:384-416). -/
def updatePaths (h : Str → Int) (db : RemoteDB) (paths : List Path) (directory : Option Bool)
    (lastsync : Option Int) : RemoteDB :=
  let db := DB.updateOpt h db paths directory (fun d n => { n with directory := d })
  DB.updateOpt h db paths lastsync (fun t n => { n with data := t })

/-- `rm_paths` (zielen/userdata.py:418-447). -/
def rmPaths (h : Str → Int) (db : RemoteDB) (paths : List Path) : RemoteDB := DB.rmCore h db paths

/-- `get_paths` (zielen/userdata.py:471-507). -/
def getPaths (h : Str → Int) (db : RemoteDB) (root : Path) (directory : Option Bool)
    (minLastsync : Option Int) : List (Row Int) :=
  (DB.getRows h db root).filter (fun n =>
    decide (directory = none ∨ directory = some n.directory) &&
      (match minLastsync with | none => true | some t => decide (t < n.data)))

end RemoteDB
end Verif
