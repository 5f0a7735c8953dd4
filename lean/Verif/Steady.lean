import Verif.WorldLemmas
/-
The clock: programs do not set it, and time does not go back.
-/
namespace Verif
open Prog OSM Call FSTools WM

/-- `m` does not set the clock. -/
def Steady {α : Type} (m : OSM α) : Prop :=
  ∀ s, wp m (fun _ s' => s'.clk = s.clk ∧ s.tick ≤ s'.tick) (fun _ s' => s'.clk = s.clk ∧ s.tick ≤ s'.tick) s

namespace Steady
variable {α β γ : Type}

theorem pure (a : α) : Steady (Pure.pure a : OSM α) := fun _ => ⟨rfl, Nat.le_refl _⟩

theorem throw (e : Err) : Steady (Prog.throw e : OSM α) := fun _ => ⟨rfl, Nat.le_refl _⟩

theorem query (f : FS → Except Err α) : Steady (OSM.query f) := by
  intro s
  rw [wp_query]
  exact ⟨fun _ _ => ⟨rfl, Nat.le_refl _⟩, fun _ _ => ⟨rfl, Nat.le_refl _⟩⟩

theorem ask (f : FS → α) : Steady (OSM.ask f) := fun _ => ⟨rfl, Nat.le_refl _⟩

theorem time : Steady OSM.time := fun _ => ⟨rfl, Nat.le_refl _⟩

theorem op (f : FS → Int → Except Err FS) : Steady (OSM.op f) := by
  intro s
  apply wp_op
  · exact ⟨rfl, Nat.le_refl _⟩
  · intro fs _; exact ⟨rfl, Nat.le_succ _⟩
  · intro e _; exact ⟨rfl, Nat.le_succ _⟩

theorem bind {m : OSM α} {f : α → OSM β} (hm : Steady m) (hf : ∀ a, Steady (f a)) : Steady (m >>= f) := by
  intro s
  rw [wp_bind]
  refine wp_mono (hm s) ?_ (fun _ _ h => h)
  intro a s' h
  exact wp_mono (hf a s') (fun _ _ h' => ⟨h'.1.trans h.1, Nat.le_trans h.2 h'.2⟩)
    (fun _ _ h' => ⟨h'.1.trans h.1, Nat.le_trans h.2 h'.2⟩)

theorem tryCatch {m : OSM α} {h : Err → Option (OSM α)} (hm : Steady m)
    (hh : ∀ e k, h e = some k → Steady k) : Steady (Prog.tryCatch m h) := by
  intro s
  rw [wp_tryCatch]
  refine wp_mono (hm s) (fun _ _ h => h) ?_
  intro e s' h1
  split
  · exact h1
  · split
    · rename_i k hk
      exact wp_mono (hh e k hk s') (fun _ _ h' => ⟨h'.1.trans h1.1, Nat.le_trans h1.2 h'.2⟩)
        (fun _ _ h' => ⟨h'.1.trans h1.1, Nat.le_trans h1.2 h'.2⟩)
    · exact h1

theorem each {f : γ → OSM Unit} (hf : ∀ x, Steady (f x)) : ∀ l, Steady (Prog.each f l)
  | [] => pure ()
  | x :: xs => bind (hf x) (fun _ => each hf xs)

theorem ite {c : Prop} [Decidable c] {a b : OSM α} (ha : Steady a) (hb : Steady b) : Steady (if c then a else b) := by
  split
  · exact ha
  · exact hb

theorem orRemote {env : Env} {m : OSM α} (hm : Steady m) : Steady (Verif.orRemote env m) := by
  unfold Verif.orRemote
  refine tryCatch hm ?_
  intro e k h
  split at h
  · cases h
    exact bind (ask _) (fun _ => throw _)
  · cases h

theorem remove (p : Path) : Steady (Call.remove p) := op _
theorem rmdir (p : Path) : Steady (Call.rmdir p) := op _
theorem mkdir (p : Path) : Steady (Call.mkdir p) := op _
theorem rename (p q : Path) : Steady (Call.rename p q) := op _
theorem update (p : Path) (f : Node → Int → Node) : Steady (Call.update p f) := op _
theorem truncate (p : Path) : Steady (Call.truncate p) := op _

theorem rmEntry (p : Path) : Steady (Call.rmEntry p) := bind (query _) (fun _ => ite (rmdir _) (remove _))

theorem rmtree (p : Path) : Steady (Call.rmtree p) := by
  refine bind (query _) (fun n => ?_)
  cases n with
  | link => exact throw _
  | file => exact throw _
  | dir => exact bind (ask _) (fun _ => bind (each (fun _ => rmEntry _) _) (fun _ => rmdir _))

theorem mkdirOk (p : Path) : Steady (Call.mkdirOk p) := by
  refine tryCatch (mkdir p) ?_
  intro e k h
  cases h
  exact bind (ask _) (fun _ => ite (pure _) (throw _))

theorem makedirsRev : ∀ p, Steady (Call.makedirsRev p)
  | [] => mkdirOk []
  | c :: rev => by
    refine bind (ask _) (fun b => ite (mkdirOk _) (bind (tryCatch (makedirsRev rev) ?_) (fun _ => mkdirOk _)))
    intro e k h
    split at h
    · cases h; exact pure _
    · cases h

theorem makedirs (p : Path) : Steady (Call.makedirs p) := makedirsRev _

theorem rmOne (parent p : Path) : Steady (Verif.rmOne parent p) := by
  refine tryCatch (remove _) ?_
  intro e k h
  unfold rmFailed at h
  split at h
  · cases h; exact rmtree _
  · cases h; exact pure _
  · cases h

theorem makeTrash (env : Env) : Steady (Verif.makeTrash env) := by
  refine tryCatch (orRemote (mkdir _)) ?_
  intro e k h
  split at h
  · cases h; exact pure _
  · cases h

theorem updateMtime (p : Path) : Steady (FSTools.updateMtime p) := by
  refine bind (ask _) (fun r => ?_)
  unfold touchAt
  split
  · exact pure _
  · exact pure _
  · exact update _ _
  · exact update _ _

theorem trashOne (env : Env) (names : List Str) (p : Path) : Steady (Verif.trashOne env names p) := by
  refine tryCatch (bind (rename _ _) (fun _ => updateMtime _)) ?_
  intro e k h
  split at h
  · cases h; exact pure _
  · cases h

theorem copyPlain (src dst : Path) : Steady (Verif.copyPlain src dst) := by
  refine bind (ask _) (fun b => bind (ask _) (fun same => ite (throw _) (bind (query _) (fun r => ?_))))
  split
  · exact bind (query _) (fun _ => bind (truncate _) (fun _ => update _ _))
  · exact throw _

theorem addExcludeFile (env : Env) : Steady (Verif.addExcludeFile env) := orRemote (copyPlain _ _)

end Steady

/-- The same for programs on the whole state. -/
def SteadyW {α : Type} (m : WM α) : Prop :=
  ∀ w, wp m (fun _ w' => w'.os.clk = w.os.clk ∧ w.os.tick ≤ w'.os.tick)
    (fun _ w' => w'.os.clk = w.os.clk ∧ w.os.tick ≤ w'.os.tick) w

namespace SteadyW
variable {α β : Type}

theorem pure (a : α) : SteadyW (Pure.pure a : WM α) := fun _ => ⟨rfl, Nat.le_refl _⟩

theorem gets (f : World → α) : SteadyW (WM.gets f) := fun _ => ⟨rfl, Nat.le_refl _⟩

theorem get? (e : Err) (o : Option α) : SteadyW (WM.get? e o) := by
  cases o <;> exact fun _ => ⟨rfl, Nat.le_refl _⟩

theorem modify {f : World → World} (h : ∀ w, (f w).os = w.os) : SteadyW (WM.modify f) := by
  intro w
  rw [wp_modify, h]
  exact ⟨rfl, Nat.le_refl _⟩

theorem sys {m : OSM α} (h : Steady m) : SteadyW (WM.sys m) := by
  intro w
  rw [wp_sys]
  exact h w.os

theorem bind {m : WM α} {f : α → WM β} (hm : SteadyW m) (hf : ∀ a, SteadyW (f a)) : SteadyW (m >>= f) := by
  intro s
  rw [wp_bind]
  refine wp_mono (hm s) ?_ (fun _ _ h => h)
  intro a s' h
  exact wp_mono (hf a s') (fun _ _ h' => ⟨h'.1.trans h.1, Nat.le_trans h.2 h'.2⟩)
    (fun _ _ h' => ⟨h'.1.trans h.1, Nat.le_trans h.2 h'.2⟩)

theorem ite {c : Prop} [Decidable c] {a b : WM α} (ha : SteadyW a) (hb : SteadyW b) :
    SteadyW (if c then a else b) := by
  split
  · exact ha
  · exact hb

theorem scanLocal (env : Env) : SteadyW (Verif.scanLocal env) :=
  bind (gets _) (fun _ => ite (bind (sys (Steady.query _)) (fun _ => bind (modify (fun _ => rfl)) (fun _ => pure _)))
    (pure _))

theorem rescanRemote (env : Env) : SteadyW (Verif.rescanRemote env) :=
  bind (sys (Steady.query _)) (fun _ => bind (modify (fun _ => rfl)) (fun _ => pure _))

theorem scanRemote (env : Env) : SteadyW (Verif.scanRemote env) :=
  bind (gets _) (fun _ => ite (rescanRemote env) (pure _))

theorem exclMatches (env : Env) : SteadyW (Verif.exclMatches env) := by
  refine bind (gets _) (fun m => ?_)
  cases m with
  | some l => exact pure _
  | none => exact bind (sys (Steady.query _)) (fun _ => bind (sys (Steady.query _)) (fun _ =>
      bind (modify (fun _ => rfl)) (fun _ => pure _)))

theorem addLocal (f d : List Path) (l : Bool) : SteadyW (Verif.addLocal f d l) := modify (fun _ => rfl)

theorem addInflated (f d : List Path) : SteadyW (Verif.addInflated f d) :=
  bind (gets _) (fun _ => bind (get? _ _) (fun _ => modify (fun _ => rfl)))

theorem addRemote (f d : List Path) : SteadyW (Verif.addRemote f d) :=
  bind (sys Steady.time) (fun _ => modify (fun _ => rfl))

theorem rmFiles (env : Env) (parent : Path) (ps : List Path) : SteadyW (Verif.rmFiles env parent ps) :=
  bind (sys (Steady.each (fun _ => Steady.rmOne _ _) _)) (fun _ => modify (fun _ => rfl))

theorem rmLocalFiles (env : Env) (ps : List Path) : SteadyW (Verif.rmLocalFiles env ps) :=
  bind (exclMatches env) (fun _ => rmFiles env _ _)

theorem rmRemoteFiles (env : Env) (ps : List Path) : SteadyW (Verif.rmRemoteFiles env ps) := rmFiles env _ _

theorem trashFiles (env : Env) (ps : List Path) : SteadyW (Verif.trashFiles env ps) :=
  bind (sys (Steady.makeTrash env)) (fun _ => bind (sys (Steady.query _)) (fun _ =>
    bind (sys (Steady.each (fun _ => Steady.trashOne _ _ _) _)) (fun _ => modify (fun _ => rfl))))

theorem inflateNew (env : Env) (f d : List Path) : SteadyW (Verif.inflateNew env f d) :=
  ite (addInflated _ _) (pure _)

theorem syncScan (env : Env) : SteadyW (Verif.syncScan env) :=
  bind (sys (Steady.makedirs _)) (fun _ => bind (sys (Steady.addExcludeFile env)) (fun _ =>
    bind (scanLocal env) (fun _ => bind (scanRemote env) (fun _ => bind (exclMatches env) (fun _ =>
    bind (gets _) (fun _ => bind (gets _) (fun _ => bind (gets _) (fun _ => bind (get? _ _) (fun _ =>
    bind (inflateNew _ _ _) (fun _ => bind (addRemote _ _) (fun _ => bind (addLocal _ _ _) (fun _ =>
    pure _))))))))))))

end SteadyW

end Verif
