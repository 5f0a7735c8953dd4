import Verif.DB
/-
The abstract tree database: a list of entries with distinct paths. The upper
layers of the model use it; `DBRefine` proves that the table model behaves like
it. Each operation here is the meaning of the SQL statements of the same name
in zielen/profile.py:441-830 and zielen/userdata.py:252-507.
-/
namespace Verif

/-- What the database knows about a path. -/
structure Entry (δ : Type) where
  path : Path
  directory : Bool
  data : δ
deriving DecidableEq, Repr

/-- Entries in insertion order. -/
abbrev ADB (δ : Type) := List (Entry δ)

namespace ADB
variable {δ : Type}

/-- The known paths. -/
def paths (a : ADB δ) : List Path := a.map Entry.path

/-- Insert if absent. -/
def insert (e : Entry δ) (a : ADB δ) : ADB δ :=
  if a.any (fun x => decide (x.path = e.path)) then a else a ++ [e]

/-- Mark as directories. -/
def mark (ps : List Path) (a : ADB δ) : ADB δ :=
  a.map (fun e => if e.path ∈ ps then { e with directory := true } else e)

/-- Shared part of `add_paths` (zielen/profile.py:573-629). -/
def addCore (a : ADB δ) (batch : List (Path × Bool)) (data : δ) : ADB δ :=
  let batch := DB.sortDepth Prod.fst batch
  mark (DB.parentsOf (batch.map Prod.fst))
    (batch.foldl (fun acc e => insert ⟨e.1, e.2, data⟩ acc) a)

/-- Shared part of `rm_paths` (zielen/profile.py:708-728). -/
def rmCore (a : ADB δ) (ps : List Path) : ADB δ :=
  a.filter (fun e => !ps.any (fun p => p.isPrefixOf e.path))

/-- `UPDATE ... WHERE id = :path_id` for each path. -/
def updateWhere (a : ADB δ) (ps : List Path) (f : Entry δ → Entry δ) : ADB δ :=
  ps.foldl (fun a p => a.map (fun e => if e.path = p then f e else e)) a

/-- The same if a value is given. -/
def updateOpt {α : Type} (a : ADB δ) (ps : List Path) (o : Option α)
    (f : α → Entry δ → Entry δ) : ADB δ :=
  match o with
  | none => a
  | some v => updateWhere a ps (f v)

/-- `get_path_info`. -/
def info (a : ADB δ) (p : Path) : Option (Entry δ) := a.find? (fun e => decide (e.path = p))

/-- `get_paths(root=...)` before the column filters. -/
def rows (a : ADB δ) (root : Path) : ADB δ := a.filter (fun e => root.isPrefixOf e.path)

/-- The immediate entries of a directory. -/
def children (a : ADB δ) (p : Path) : ADB δ :=
  a.filter (fun e => decide (e.path.dropLast = p))

/-- One aggregate update. -/
def aggStep (agg : List δ → δ → δ) (a : ADB δ) (p : Path) : ADB δ :=
  a.map (fun e => if e.path = p
    then { e with data := agg ((children a p).map Entry.data) e.data } else e)

/-- Aggregate updates leaf to trunk (zielen/profile.py:499-554). -/
def updateAgg (agg : List δ → δ → δ) (a : ADB δ) (ps : List Path) : ADB δ :=
  (pathAncestry ps).foldl (aggStep agg) a

end ADB

/-- The abstract profile database. -/
abbrev ALocal := ADB PData

namespace ALocal

/-- `_update_priority` then `_update_local` of the same directories. -/
def refresh (a : ALocal) (ps : List Path) : ALocal :=
  ADB.updateAgg aggLocal (ADB.updateAgg aggPriority a ps) ps

/-- `add_paths` (zielen/profile.py:556-631). -/
def addPaths (a : ALocal) (batch : List (Path × Bool)) (priority : Rat) (loc : Bool) : ALocal :=
  refresh (ADB.addCore a batch ⟨priority, loc⟩)
    (DB.parentsOf ((DB.sortDepth Prod.fst batch).map Prod.fst))

/-- `SELECT MAX(priority) FROM nodes WHERE directory = 0`. -/
def maxPriority (a : ALocal) : Option Rat :=
  ((a.filter (fun e => !e.directory)).map (fun e => e.data.priority)).max?

/-- `add_inflated` (zielen/profile.py:633-645). -/
def addInflated (a : ALocal) (batch : List (Path × Bool)) : Option ALocal :=
  match maxPriority a with
  | some m => some (addPaths a batch m true)
  | none => if batch.isEmpty then some (addPaths a batch 0 true) else none

/-- `update_paths` (zielen/profile.py:647-695). -/
def updatePaths (a : ALocal) (ps : List Path) (directory : Option Bool) (priority : Option Rat)
    (loc : Option Bool) : ALocal :=
  let a := ADB.updateOpt a ps directory (fun d e => { e with directory := d })
  let a := ADB.updateOpt a ps priority (fun x e => { e with data := { e.data with priority := x } })
  let a := ADB.updateOpt a ps loc (fun b e => { e with data := { e.data with loc := b } })
  refresh a (DB.parentsOf ps)

/-- `rm_paths` (zielen/profile.py:697-730). -/
def rmPaths (a : ALocal) (ps : List Path) : ALocal :=
  refresh (ADB.rmCore a ps) (DB.parentsOf ps)

/-- `get_paths` (zielen/profile.py:757-795). -/
def getPaths (a : ALocal) (root : Path) (directory loc : Option Bool) : ALocal :=
  (ADB.rows a root).filter (fun n =>
    decide ((directory = none ∨ directory = some n.directory) ∧
      (loc = none ∨ loc = some n.data.loc)))

/-- `increment` (zielen/profile.py:797-819). -/
def increment (a : ALocal) (ps : List Path) (x : Rat) : ALocal :=
  ADB.updateAgg aggPriority
    (ADB.updateWhere a ps
      (fun e => { e with data := { e.data with priority := e.data.priority + x } }))
    (DB.parentsOf ps)

/-- `adjust_all` (zielen/profile.py:821-830). -/
def adjustAll (a : ALocal) (c : Rat) : ALocal :=
  a.map (fun e => { e with data := { e.data with priority := e.data.priority * c } })

end ALocal

/-- The abstract remote database. -/
abbrev ARemote := ADB Int

namespace ARemote

/-- `add_paths` (zielen/userdata.py:311-382). -/
def addPaths (a : ARemote) (batch : List (Path × Bool)) (now : Int) : ARemote :=
  ADB.addCore a batch now

/-- `update_paths` (zielen/userdata.py:384-416). -/
def updatePaths (a : ARemote) (ps : List Path) (directory : Option Bool)
    (lastsync : Option Int) : ARemote :=
  let a := ADB.updateOpt a ps directory (fun d e => { e with directory := d })
  ADB.updateOpt a ps lastsync (fun t e => { e with data := t })

/-- `rm_paths` (zielen/userdata.py:418-447). -/
def rmPaths (a : ARemote) (ps : List Path) : ARemote := ADB.rmCore a ps

/-- `get_paths` (zielen/userdata.py:471-507). -/
def getPaths (a : ARemote) (root : Path) (directory : Option Bool)
    (minLastsync : Option Int) : ARemote :=
  (ADB.rows a root).filter (fun n =>
    decide (directory = none ∨ directory = some n.directory) &&
      (match minLastsync with | none => true | some t => decide (t < n.data)))

end ARemote
end Verif
