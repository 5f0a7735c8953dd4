import Verif.SyncQuiet
/-
What is saved: only the end of a sync saves anything, so a sync that does not succeed leaves the database of the
profile as it was, and the time of the last sync as it was or later.
-/
namespace Verif
open Prog OSM Call FSTools WM

/-- What has been saved is the same in both states. -/
def SameSaved (w w' : World) : Prop :=
  w'.dbSaved = w.dbSaved ∧ w'.rdbSaved = w.rdbSaved ∧ w'.lastSaved = w.lastSaved

/-- `m` saves nothing. -/
def Unsaved {α : Type} (m : WM α) : Prop := ∀ w, wp m (fun _ w' => SameSaved w w') (fun _ w' => SameSaved w w') w

namespace Unsaved
variable {α β : Type}

theorem pure (a : α) : Unsaved (Pure.pure a : WM α) := fun _ => ⟨rfl, rfl, rfl⟩

theorem gets (f : World → α) : Unsaved (WM.gets f) := fun _ => ⟨rfl, rfl, rfl⟩

theorem get? (e : Err) (o : Option α) : Unsaved (WM.get? e o) := by
  cases o <;> exact fun _ => ⟨rfl, rfl, rfl⟩

theorem modify {f : World → World} (h : ∀ w, SameSaved w (f w)) : Unsaved (WM.modify f) := by
  intro w
  rw [wp_modify]
  exact h w

theorem sys (m : OSM α) : Unsaved (WM.sys m) := by
  intro w
  rw [wp_sys]
  unfold wp
  split <;> exact ⟨rfl, rfl, rfl⟩

theorem bind {m : WM α} {f : α → WM β} (hm : Unsaved m) (hf : ∀ a, Unsaved (f a)) : Unsaved (m >>= f) := by
  intro s
  rw [wp_bind]
  refine wp_mono (hm s) ?_ (fun _ _ h => h)
  intro a s' h
  have t : ∀ w', SameSaved s' w' → SameSaved s w' :=
    fun w' h' => ⟨h'.1.trans h.1, h'.2.1.trans h.2.1, h'.2.2.trans h.2.2⟩
  exact wp_mono (hf a s') (fun _ w' h' => t w' h') (fun _ w' h' => t w' h')

theorem ite {c : Prop} [Decidable c] {a b : WM α} (ha : Unsaved a) (hb : Unsaved b) :
    Unsaved (if c then a else b) := by
  split
  · exact ha
  · exact hb

theorem scanLocal (env : Env) : Unsaved (Verif.scanLocal env) :=
  bind (gets _) (fun _ => ite (bind (sys _)
    (fun _ => bind (modify (fun _ => ⟨rfl, rfl, rfl⟩)) (fun _ => pure _))) (pure _))

theorem rescanRemote (env : Env) : Unsaved (Verif.rescanRemote env) :=
  bind (sys _) (fun _ => bind (modify (fun _ => ⟨rfl, rfl, rfl⟩)) (fun _ => pure _))

theorem scanRemote (env : Env) : Unsaved (Verif.scanRemote env) :=
  bind (gets _) (fun _ => ite (rescanRemote env) (pure _))

theorem exclMatches (env : Env) : Unsaved (Verif.exclMatches env) := by
  refine bind (gets _) (fun m => ?_)
  cases m with
  | some l => exact pure _
  | none => exact bind (sys _) (fun _ => bind (sys _) (fun _ =>
      bind (modify (fun _ => ⟨rfl, rfl, rfl⟩)) (fun _ => pure _)))

theorem addLocal (f d : List Path) (l : Bool) : Unsaved (Verif.addLocal f d l) := modify (fun _ => ⟨rfl, rfl, rfl⟩)

theorem addInflated (f d : List Path) : Unsaved (Verif.addInflated f d) :=
  bind (gets _) (fun _ => bind (get? _ _) (fun _ => modify (fun _ => ⟨rfl, rfl, rfl⟩)))

theorem inflateNew (env : Env) (f d : List Path) : Unsaved (Verif.inflateNew env f d) :=
  ite (addInflated _ _) (pure _)

theorem addRemote (f d : List Path) : Unsaved (Verif.addRemote f d) :=
  bind (sys _) (fun _ => modify (fun _ => ⟨rfl, rfl, rfl⟩))

theorem rmBoth (ps : List Path) : Unsaved (Verif.rmBoth ps) := modify (fun _ => ⟨rfl, rfl, rfl⟩)

theorem rmFiles (env : Env) (parent : Path) (ps : List Path) : Unsaved (Verif.rmFiles env parent ps) :=
  bind (sys _) (fun _ => rmBoth _)

theorem rmLocalFiles (env : Env) (ps : List Path) : Unsaved (Verif.rmLocalFiles env ps) :=
  bind (exclMatches env) (fun _ => rmFiles env _ _)

theorem rmRemoteFiles (env : Env) (ps : List Path) : Unsaved (Verif.rmRemoteFiles env ps) := rmFiles env _ _

theorem rmExcludedFiles (env : Env) (ps : List Path) : Unsaved (Verif.rmExcludedFiles env ps) :=
  bind (sys _) (fun _ => bind (gets _) (fun _ => rmRemoteFiles env _))

theorem renameFiles (moves : OSM Unit) (prs : List (Path × Path)) : Unsaved (Verif.renameFiles moves prs) :=
  bind (sys _) (fun _ => bind (gets _) (fun _ => bind (modify (fun _ => ⟨rfl, rfl, rfl⟩)) (fun _ =>
    bind (addLocal _ _ _) (fun _ => addRemote _ _))))

theorem handleConflicts (env : Env) (a b : List Path) : Unsaved (Verif.handleConflicts env a b) :=
  bind (scanLocal env) (fun _ => bind (scanRemote env) (fun _ => bind (gets _) (fun _ =>
    bind (sys _) (fun _ => bind (sys _) (fun _ =>
    bind (renameFiles _ _) (fun _ =>
    bind (renameFiles _ _) (fun _ => pure _)))))))

theorem trashFiles (env : Env) (ps : List Path) : Unsaved (Verif.trashFiles env ps) :=
  bind (sys _) (fun _ => bind (sys _) (fun _ => bind (sys _) (fun _ => rmBoth _)))

theorem removeStale (env : Env) (ps : List Path) : Unsaved (Verif.removeStale env ps) :=
  bind (scanLocal env) (fun _ => bind (exclMatches env) (fun _ => bind (gets _) (fun _ => sys _)))

theorem updateLocal (env : Env) (ps : List Path) : Unsaved (Verif.updateLocal env ps) :=
  bind (removeStale env _) (fun _ => bind (gets _) (fun _ => bind (sys _) (fun _ => modify (fun _ => ⟨rfl, rfl, rfl⟩))))

theorem updateRemote (env : Env) (ps : List Path) : Unsaved (Verif.updateRemote env ps) :=
  bind (sys _) (fun _ => bind (sys _) (fun _ => modify (fun _ => ⟨rfl, rfl, rfl⟩)))

theorem syncScan (env : Env) : Unsaved (Verif.syncScan env) :=
  bind (sys _) (fun _ => bind (sys _) (fun _ =>
    bind (scanLocal env) (fun _ => bind (scanRemote env) (fun _ => bind (exclMatches env) (fun _ =>
    bind (gets _) (fun _ => bind (gets _) (fun _ => bind (gets _) (fun _ => bind (get? _ _) (fun _ =>
    bind (inflateNew _ _ _) (fun _ => bind (addRemote _ _) (fun _ => bind (addLocal _ _ _) (fun _ =>
    pure _))))))))))))

theorem syncRemote (env : Env) (d : DeletedPaths) (n m : UpdatedPaths) : Unsaved (Verif.syncRemote env d n m) :=
  bind (rmLocalFiles _ _) (fun _ => bind (rmRemoteFiles _ _) (fun _ => bind (trashFiles _ _) (fun _ =>
    bind (handleConflicts _ _ _) (fun _ => bind (inflateNew _ _ _) (fun _ => bind (addRemote _ _) (fun _ =>
    bind (addLocal _ _ _) (fun _ => updateRemote _ _)))))))

theorem syncSelect (env : Env) : Unsaved (Verif.syncSelect env) :=
  bind (exclMatches _) (fun _ => bind (scanRemote _) (fun _ => bind (scanLocal _) (fun _ => bind (get? _ _) (fun _ =>
    bind (rescanRemote _) (fun _ => bind (gets _) (fun _ => bind (gets _) (fun _ => bind (get? _ _) (fun _ =>
    bind (get? _ _) (fun _ => pure _)))))))))

theorem syncCleanup (env : Env) : Unsaved (Verif.syncCleanup env) := by
  unfold Verif.syncCleanup
  split
  · exact pure _
  · exact ite (pure _) (sys _)

end Unsaved

/-- What a sync that does not succeed has saved: the database of the profile is as it was, and the time of the last
sync is as it was or is the time at which the sync ended. The remote database is as it was or has no times from the
future. -/
def Unfinished (w w' : World) : Prop :=
  w'.dbSaved = w.dbSaved ∧ (w'.lastSaved = w.lastSaved ∨ ∃ k, w.os.tick ≤ k ∧ k ≤ w'.os.tick ∧ w'.lastSaved = w.os.clk k) ∧
  (w'.rdbSaved = w.rdbSaved ∨ ∀ e ∈ w'.rdbSaved, e.data ≤ w.os.clk w'.os.tick)

theorem unfinished_sync (env : Env) {w : World} (h : AgedW w.os.clk w.os.tick w) :
    wp (sync env) (fun _ _ => True) (fun _ w' => Unfinished w w') w := by
  have step : ∀ {α β : Type} {m : WM α} {f : α → WM β} {w1 : World}, Unsaved m → TimelyW m →
      SameSaved w w1 → AgedW w.os.clk w.os.tick w1 →
      (∀ a w2, SameSaved w w2 → AgedW w.os.clk w.os.tick w2 → wp (f a) (fun _ _ => True) (fun _ w' => Unfinished w w') w2) →
      wp (m >>= f) (fun _ _ => True) (fun _ w' => Unfinished w w') w1 := by
    intro α β m f w1 hu ht hs ha hk
    rw [wp_bind]
    refine wp_mono (wp_and (hu w1) (ht w1 _ _ ha)) ?_ ?_
    · rintro a w2 ⟨h1, h2⟩
      exact hk a w2 ⟨h1.1.trans hs.1, h1.2.1.trans hs.2.1, h1.2.2.trans hs.2.2⟩ h2
    · rintro e w2 ⟨h1, _⟩
      exact ⟨h1.1.trans hs.1, Or.inl (h1.2.2.trans hs.2.2), Or.inl (h1.2.1.trans hs.2.1)⟩
  unfold sync
  refine step (Unsaved.syncScan env) (TimelyW.syncScan env) ⟨rfl, rfl, rfl⟩ h ?_
  intro x w1 s1 h1
  refine step (Unsaved.syncRemote env _ _ _) (TimelyW.syncRemote env _ _ _) s1 h1 ?_
  intro _ w2 s2 h2
  refine step (Unsaved.syncSelect env) (TimelyW.syncSelect env) s2 h2 ?_
  intro y w3 s3 h3
  unfold syncLocal
  refine step (Unsaved.updateLocal env _) (TimelyW.updateLocal env _) s3 h3 ?_
  intro _ w4 s4 h4
  refine step (Unsaved.rmExcludedFiles env _) (TimelyW.rmExcludedFiles env _) s4 h4 ?_
  intro _ w5 s5 h5
  refine step (Unsaved.syncCleanup env) (TimelyW.syncCleanup env) s5 h5 ?_
  rintro _ w6 ⟨e1, e2, e3⟩ ⟨⟨hc, hm, hk, _⟩, hr⟩
  have later : ∀ j, w6.os.tick ≤ j → ∀ e ∈ w6.rdb, e.data ≤ w.os.clk j :=
    fun j hj e he => Int.le_trans (hr e he) (hm _ _ hj)
  unfold syncSave writeRemote writeProfile
  rw [wp_bind]
  apply wp_save
  · exact ⟨e1, Or.inl e3, Or.inl e2⟩
  · rw [wp_bind, wp_sys, wp_time, wp_bind, wp_modify, wp_bind]
    apply wp_save
    · exact ⟨e1, Or.inl e3, Or.inr (later _ (Nat.le_succ _))⟩
    · apply wp_save
      · refine ⟨e1, Or.inr ⟨w6.os.tick + 1, by omega, Nat.le_succ _, ?_⟩, Or.inr (later _ (by show _ ≤ _ + 1 + 1; omega))⟩
        show w6.os.clk _ = _
        rw [hc]; rfl
      · trivial

end Verif
