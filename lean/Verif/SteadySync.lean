import Verif.Steady
/-
The clock during a whole sync.
-/
namespace Verif
open Prog OSM Call FSTools WM

namespace Steady
variable {α β γ : Type}

theorem symlink (x : Str) (p : Path) : Steady (Call.symlink x p) := op _

theorem copyFile (c : Nat) (m : Int) (b : Nat) (dst : Path) : Steady (Call.copyFile c m b dst) :=
  bind (query _) (fun _ => bind (truncate _) (fun _ => bind (update _ _) (fun _ => update _ _)))

theorem copyLink (x : Str) (m : Int) (dst : Path) : Steady (Call.copyLink x m dst) :=
  bind (symlink _ _) (fun _ => update _ _)

theorem copyTo (src dst : Path) : Steady (Call.copyTo src dst) := by
  refine bind (ask _) (fun same => ite (throw _) (bind (ask _) (fun r => ?_)))
  split
  · exact copyLink _ _ _
  · exact throw _
  · exact copyFile _ _ _ _
  · exact throw _

theorem copy2 (src dst : Path) : Steady (Call.copy2 src dst) := bind (ask _) (fun _ => copyTo _ _)

theorem copyEntry (src dst : Path) : Steady (FSTools.copyEntry src dst) := by
  refine tryCatch (copy2 _ _) ?_
  intro e k h
  unfold copyFailed at h
  split at h
  · cases h; exact bind (remove _) (fun _ => copy2 _ _)
  · cases h; exact bind (remove _) (fun _ => copy2 _ _)
  · cases h; exact makedirs _
  · cases h

theorem rmSrc (p : Path) : Steady (FSTools.rmSrc p) :=
  tryCatch (remove _) (fun _ _ h => by cases h; exact rmdir _)

theorem transferOne (a b : Path) (r : Bool) (p : Path) : Steady (FSTools.transferOne a b r p) :=
  bind (makedirs _) (fun _ => bind (copyEntry _ _) (fun _ => ite (rmSrc _) (pure _)))

theorem transferTree (a b : Path) (f : Option (List Path)) (x : List Path) (r : Bool) :
    Steady (FSTools.transferTree a b f x r) :=
  bind (ask _) (fun _ => ite (bind (query _) (fun _ => each (fun _ => transferOne _ _ _ _) _)) (throw _))

theorem linkNew (a b p : Path) : Steady (FSTools.linkNew a b p) := bind (symlink _ _) (fun _ => pure _)

theorem linkOne (a b : Path) (d : List Path) (ow : Bool) (p : Path) : Steady (FSTools.linkOne a b d ow p) := by
  refine ite (tryCatch (bind (mkdir _) (fun _ => pure _)) ?_) (tryCatch (linkNew _ _ _) ?_)
  · intro e k h
    split at h
    · cases h; exact pure _
    · cases h
  · intro e k h
    split at h
    · cases h; exact ite (bind (remove _) (fun _ => linkNew _ _ _)) (pure _)
    · cases h

theorem linkLoop (a b : Path) (d : List Path) (ow : Bool) : ∀ l, Steady (FSTools.linkLoop a b d ow l)
  | [] => pure _
  | _ :: l => bind (linkOne _ _ _ _ _) (fun _ => bind (linkLoop a b d ow l) (fun _ => pure _))

theorem symlinkTree (a b : Path) (f d : List Path) (ow : Bool) : Steady (FSTools.symlinkTree a b f d ow) :=
  bind (makedirs _) (fun _ => linkLoop _ _ _ _ _)

theorem renameAll (parent : Path) (prs : List (Path × Path)) : Steady (Verif.renameAll parent prs) :=
  each (fun _ => rename _ _) _

theorem cleanOne (env : Env) (cutoff : Int) (e : Path) : Steady (Verif.cleanOne env cutoff e) := by
  refine bind (query _) (fun n => ite (tryCatch (rmtree _) ?_) (pure _))
  intro x k h
  split at h
  · cases h; exact remove _
  · cases h

theorem cleanupTrash (env : Env) (period : Int) : Steady (Verif.cleanupTrash env period) :=
  bind time (fun _ => bind (query _) (fun _ => each (fun _ => cleanOne _ _ _) _))

theorem staleOne (env : Env) (p : Path) : Steady (Verif.staleOne env p) := by
  refine bind (ask _) (fun b => ite (pure _) (tryCatch (remove _) ?_))
  intro e k h
  unfold staleDir at h
  split at h
  · cases h; exact tryCatch (rmdir _) (fun _ _ h => by cases h; exact pure _)
  · cases h

end Steady

namespace SteadyW
variable {α β : Type}

theorem save {f : World → World} (h : ∀ w, (f w).os = w.os) : SteadyW (WM.save f) :=
  bind (sys (Steady.op _)) (fun _ => modify h)

theorem rmBoth (ps : List Path) : SteadyW (Verif.rmBoth ps) := modify (fun _ => rfl)

theorem rmExcludedFiles (env : Env) (ps : List Path) : SteadyW (Verif.rmExcludedFiles env ps) :=
  bind (sys (Steady.query _)) (fun _ => bind (gets _) (fun _ => rmRemoteFiles env _))

theorem renameFiles {moves : OSM Unit} (hm : Steady moves) (prs : List (Path × Path)) :
    SteadyW (Verif.renameFiles moves prs) :=
  bind (sys hm) (fun _ => bind (gets _) (fun _ => bind (modify (fun _ => rfl)) (fun _ =>
    bind (addLocal _ _ _) (fun _ => addRemote _ _))))

theorem handleConflicts (env : Env) (a b : List Path) : SteadyW (Verif.handleConflicts env a b) :=
  bind (scanLocal env) (fun _ => bind (scanRemote env) (fun _ => bind (gets _) (fun _ =>
    bind (sys (Steady.time)) (fun _ => bind (sys (Steady.query _)) (fun _ =>
    bind (renameFiles (Steady.renameAll _ _) _) (fun _ =>
    bind (renameFiles (Steady.orRemote (Steady.renameAll _ _)) _) (fun _ => pure _)))))))

theorem removeStale (env : Env) (ps : List Path) : SteadyW (Verif.removeStale env ps) :=
  bind (scanLocal env) (fun _ => bind (exclMatches env) (fun _ => bind (gets _) (fun _ =>
    sys (Steady.each (fun _ => Steady.staleOne _ _) _))))

theorem updateLocal (env : Env) (ps : List Path) : SteadyW (Verif.updateLocal env ps) :=
  bind (removeStale env _) (fun _ => bind (gets _) (fun _ => bind (sys (Steady.orRemote
    (Steady.bind (Steady.symlinkTree _ _ _ _ _) (fun _ => Steady.bind (Steady.transferTree _ _ _ _ _)
      (fun _ => Steady.pure _))))) (fun _ => modify (fun _ => rfl))))

theorem updateRemote (env : Env) (ps : List Path) : SteadyW (Verif.updateRemote env ps) :=
  bind (sys (Steady.orRemote (Steady.transferTree _ _ _ _ _))) (fun _ => bind (sys Steady.time) (fun _ =>
    modify (fun _ => rfl)))

theorem syncRemote (env : Env) (d : DeletedPaths) (n m : UpdatedPaths) : SteadyW (Verif.syncRemote env d n m) :=
  bind (rmLocalFiles _ _) (fun _ => bind (rmRemoteFiles _ _) (fun _ => bind (trashFiles _ _) (fun _ =>
    bind (handleConflicts _ _ _) (fun _ => bind (inflateNew _ _ _) (fun _ => bind (addRemote _ _) (fun _ =>
    bind (addLocal _ _ _) (fun _ => updateRemote _ _)))))))

theorem syncSelect (env : Env) : SteadyW (Verif.syncSelect env) :=
  bind (exclMatches _) (fun _ => bind (scanRemote _) (fun _ => bind (scanLocal _) (fun _ => bind (get? _ _) (fun _ =>
    bind (rescanRemote _) (fun _ => bind (gets _) (fun _ => bind (gets _) (fun _ => bind (get? _ _) (fun _ =>
    bind (get? _ _) (fun _ => pure _)))))))))

theorem syncCleanup (env : Env) : SteadyW (Verif.syncCleanup env) := by
  unfold Verif.syncCleanup
  split
  · exact pure _
  · exact ite (pure _) (sys (Steady.cleanupTrash _ _))

end SteadyW

end Verif
