import Verif.SyncTrace
import Verif.Props.C69_History
import Verif.Props.C77_Storage
import Verif.ExampleOrderly
/-
C78: after an initialisation and after every sync the priority of a directory in the profile database is the sum of the
priorities of its entries.

C05 says this of the operations of the database, if each of them gets the paths that its callers give it. Here the
operations are those that the commands really perform.
-/
namespace Verif
open Prog OSM Call FSTools WM

/-- The priority of every directory that has entries is the sum of the priorities of its entries. -/
def SumsOfEntries (db : ALocal) : Prop :=
  ∀ d ∈ db, (∃ e ∈ db, e.path.dropLast = d.path) →
    d.data.priority = ((db.filter (fun e => decide (e.path.dropLast = d.path))).map (fun e => e.data.priority)).sum

theorem sumsOfEntries_iff {db : ALocal} : SumsOfEntries db ↔ PrioSums db := by
  have hk : ∀ p, (kids (ALocal.vPrio db) p).map Prod.snd =
      (db.filter (fun e => decide (e.path.dropLast = p))).map (fun e => e.data.priority) := by
    intro p
    unfold kids ALocal.vPrio ADB.view
    rw [List.filter_map, List.map_map]; rfl
  have hn : ∀ p, kids (ALocal.vPrio db) p ≠ [] ↔ ∃ e ∈ db, e.path.dropLast = p := by
    intro p
    constructor
    · intro h
      obtain ⟨y, hy, h1⟩ := ALocal.exists_kid h
      obtain ⟨e, he, rfl⟩ := List.mem_map.1 hy
      exact ⟨e, he, h1⟩
    · rintro ⟨e, he, h1⟩ h2
      have : (e.path, e.data.priority) ∈ kids (ALocal.vPrio db) p :=
        mem_kids.2 ⟨List.mem_map.2 ⟨e, he, rfl⟩, h1⟩
      rw [h2] at this; cases this
  constructor
  · rintro h x hx hx2
    obtain ⟨d, hd, rfl⟩ := List.mem_map.1 hx
    rw [hk]
    exact h d hd ((hn _).1 hx2)
  · intro h d hd he
    have := h (d.path, d.data.priority) (List.mem_map.2 ⟨d, hd, rfl⟩) ((hn _).2 he)
    rw [hk] at this
    exact this

/-- C78: after a sync without an error the priority of every directory with entries is the sum of the priorities of its
entries, if that was so before. -/
theorem C78_sync_partial {env : Env} {w : World} (r : SyncReady env w) (c : Calm env w)
    (h : (sync env w).1 = .ok ()) (hs : SumsOfEntries w.db) : SumsOfEntries (sync env w).2.db := by
  have h1 : sync env w = (.ok (), (sync env w).2) := by rw [← h]
  obtain ⟨del, new, mod, w1, w2, upd, w3, cp, DL, DR, l, w4, sel, rex, w5, w6, S, T, D⟩ := (wp_ok (wp_sync r) h1).2
  generalize (sync env w).2 = w' at *
  rw [sumsOfEntries_iff] at hs ⊢
  have p4 := S.prio4 r c hs
  have db5 : w5.db = w4.db := by obtain ⟨x, y, e⟩ := T.same; rw [e]
  have rdb5 : w5.rdb = w4.rdb := by obtain ⟨x, y, e⟩ := T.same; rw [e]
  have c4 : DB.ParentClosed (ADB.paths w4.db) := by
    intro p hp h0
    obtain ⟨n, hn⟩ := T.found p hp ((S.same4 c p).1 hp)
    have hu : UserPath p := by
      obtain ⟨d, hd⟩ := S.up.db.path hp
      exact hd.user
    obtain ⟨a, b, hd⟩ := FS.isDir_iff.1 (S.up.wf.isDir_prefix hn (env.rem ++ p.dropLast)
      ((List.prefix_append_right_inj _).2 (List.dropLast_prefix p)) (fun e => by
        have := congrArg List.length (List.append_cancel_left e)
        have := List.length_pos_iff.2 hu.1
        simp at *
        omega))
    exact S.cover4 r c (PlainPath.user (hu.plain.prefix (List.dropLast_prefix p)) h0) hd
  obtain ⟨nw, e6, N⟩ := D.db
  obtain ⟨ps, e7, _, _⟩ := D.ended.tr
  rw [e7, e6, db5]
  have v6 := vPrio_markLocal p4 c4 (ps := setOf sel) (new := nw) (fun p hp => by
    have := N.row p hp
    rw [rdb5] at this
    exact (S.same4 c p).2 this)
  have pth6 : ADB.paths (markLocal w4.db (setOf sel) nw) = ADB.paths w4.db := by
    rw [← ADB.view_paths PData.priority, ← ADB.view_paths PData.priority (a := w4.db)]
    exact congrArg _ v6
  refine PrioSums.rm ?_ ?_ ps
  · unfold PrioSums; rw [v6]; exact p4
  · rw [pth6]; exact Fit.ne_nil S.up.db

/-! ### The daemon -/

theorem Counted.prioSums {a b : ALocal} (h : Counted a b) (h0 : ∀ p ∈ ADB.paths a, p ≠ []) (hs : PrioSums a) :
    PrioSums b := by
  induction h with
  | none => exact hs
  | @opened b ps x hc hn ih =>
    unfold PrioSums ALocal.increment ALocal.vPrio
    rw [ADB.view_updateAgg (agg := aggPriority) (g := List.sum) (fun _ _ => rfl)]
    refine ALocal.aggV_update (fun y hy => h0 _ (hc.paths_eq ▸ ALocal.fst_mem_view hy))
      (ADB.offEq_updateWhere _ b ps _ (fun _ => rfl)) ih ?_
    rw [ADB.view_paths]
    rintro p hp ⟨k, hk, e⟩
    exact absurd e (hn p hp k hk)
  | @adjusted b c _ ih =>
    unfold PrioSums
    rw [ALocal.vPrio_adjust]
    intro x hx hkx
    have hk : ∀ p, kids ((ALocal.vPrio b).map (fun x => (x.1, x.2 * c))) p =
        (kids (ALocal.vPrio b) p).map (fun x => (x.1, x.2 * c)) := by
      intro p
      unfold kids
      rw [List.filter_map]
      rfl
    obtain ⟨y, hy, rfl⟩ := List.mem_map.1 hx
    rw [hk] at hkx ⊢
    simp only [ne_eq, List.map_eq_nil_iff] at hkx
    have := ih y hy hkx
    simp only [List.map_map]
    rw [show (Prod.snd ∘ fun x : Path × Rat => (x.1, x.2 * c)) = (· * c) ∘ Prod.snd from rfl,
      ← List.map_map, ALocal.sum_map_mul, ← this]

/-- C78: what the daemon does between two commands keeps it true. -/
theorem C78_daemon {a b : ALocal} (h : Counted a b) (h0 : ∀ p ∈ ADB.paths a, p ≠ []) (hs : SumsOfEntries a) :
    SumsOfEntries b := sumsOfEntries_iff.2 (h.prioSums h0 (sumsOfEntries_iff.1 hs))

/-! ### Initialisation -/

/-- `m` keeps what `P` says of the rows. -/
def KeepsDB {α : Type} (P : ALocal → Prop) (m : WM α) : Prop :=
  ∀ w, P w.db → wp m (fun _ w' => P w'.db) (fun _ w' => P w'.db) w

namespace KeepsDB
variable {α β : Type} {P : ALocal → Prop}

theorem pure (a : α) : KeepsDB P (Pure.pure a : WM α) := fun _ h => h

theorem gets (f : World → α) : KeepsDB P (WM.gets f) := fun _ h => h

theorem modify {f : World → World} (h : ∀ w, P w.db → P (f w).db) : KeepsDB P (WM.modify f) := by
  intro w hw
  rw [wp_modify]
  exact h w hw

theorem sys (m : OSM α) : KeepsDB P (WM.sys m) := by
  intro w hw
  rw [wp_sys]
  unfold wp
  split <;> exact hw

theorem bind {m : WM α} {f : α → WM β} (hm : KeepsDB P m) (hf : ∀ a, KeepsDB P (f a)) : KeepsDB P (m >>= f) := by
  intro w hw
  rw [wp_bind]
  exact wp_mono (hm w hw) (fun a w' h => hf a w' h) (fun _ _ h => h)

theorem ite {c : Prop} [Decidable c] {a b : WM α} (ha : KeepsDB P a) (hb : KeepsDB P b) :
    KeepsDB P (if c then a else b) := by
  split
  · exact ha
  · exact hb

theorem scanLocal (env : Env) : KeepsDB P (Verif.scanLocal env) :=
  bind (gets _) (fun _ => ite (bind (sys _) (fun _ => bind (modify (fun _ h => h)) (fun _ => pure _))) (pure _))

theorem rescanRemote (env : Env) : KeepsDB P (Verif.rescanRemote env) :=
  bind (sys _) (fun _ => bind (modify (fun _ h => h)) (fun _ => pure _))

theorem scanRemote (env : Env) : KeepsDB P (Verif.scanRemote env) :=
  bind (gets _) (fun _ => ite (rescanRemote env) (pure _))

theorem exclMatches (env : Env) : KeepsDB P (Verif.exclMatches env) := by
  refine bind (gets _) (fun m => ?_)
  cases m with
  | some l => exact pure _
  | none => exact bind (sys _) (fun _ => bind (sys _) (fun _ => bind (modify (fun _ h => h)) (fun _ => pure _)))

theorem addRemote (f d : List Path) : KeepsDB P (Verif.addRemote f d) :=
  bind (sys _) (fun _ => modify (fun _ h => h))

theorem save (f : World → World) (h : ∀ w, P w.db → P (f w).db) : KeepsDB P (WM.save f) := by
  intro w hw
  unfold WM.save
  exact bind (sys _) (fun _ => modify h) w hw

theorem init (env : Env) (b : Bool) (hadd : ∀ f d, KeepsDB P (Verif.addLocal f d false)) :
    KeepsDB P (Verif.init env b) := by
  have setup : ∀ u, KeepsDB P (setupDir env u) := fun u =>
    bind (scanRemote env) (fun _ => bind (hadd _ _) (fun _ => bind (addRemote _ _) (fun _ =>
      bind (gets _) (fun _ => bind (sys _) (fun _ => pure _)))))
  have tail : KeepsDB P (do
      WM.sys (addExcludeFile env)
      writeRemote
      let now ← WM.sys time
      WM.modify (fun w => { w with last := now })
      writeProfile) :=
    bind (sys _) (fun _ => bind (save _ (fun _ h => h)) (fun _ => bind (sys _) (fun _ =>
      bind (modify (fun _ h => h)) (fun _ => bind (save _ (fun _ h => h)) (fun _ => save _ (fun _ h => h))))))
  refine bind (sys _) (fun _ => bind (sys _) (fun _ => bind (sys _) (fun _ => ite (bind ?_ (fun _ => tail))
    (bind ?_ (fun _ => tail)))))
  · exact bind (scanRemote env) (fun _ => setup _)
  · exact bind (scanLocal env) (fun _ => bind (exclMatches env) (fun _ => bind (sys _) (fun _ => setup _)))

end KeepsDB

/-- All priorities are zero. -/
def AllZero (db : ALocal) : Prop := ∀ x ∈ ALocal.vPrio db, x.2 = 0

theorem sum_zeros : ∀ (l : List Rat), (∀ x ∈ l, x = 0) → l.sum = 0
  | [], _ => rfl
  | a :: l, h => by
    rw [List.sum_cons, h a List.mem_cons_self, sum_zeros l (fun x hx => h x (List.mem_cons_of_mem _ hx))]
    exact Rat.add_zero 0

theorem vFold_zeros (ps : List Path) : ∀ (v : List (Path × Rat)), (∀ x ∈ v, x.2 = 0) →
    ∀ x ∈ ps.foldl (vStep List.sum) v, x.2 = 0 := by
  induction ps with
  | nil => intro v h; exact h
  | cons p ps ih =>
    intro v h
    rw [List.foldl_cons]
    apply ih
    intro x hx
    unfold vStep at hx
    obtain ⟨y, hy, rfl⟩ := List.mem_map.1 hx
    by_cases hp : y.1 = p
    · rw [if_pos hp]
      apply sum_zeros
      intro z hz
      obtain ⟨k, hk, rfl⟩ := List.mem_map.1 hz
      exact h k (mem_kids.1 hk).1
    · rw [if_neg hp]; exact h y hy

theorem AllZero.add {db : ALocal} (h : AllZero db) (b : List (Path × Bool)) (l : Bool) :
    AllZero (ALocal.addPaths db b 0 l) := by
  unfold AllZero ALocal.addPaths
  rw [ALocal.vPrio_refresh]
  apply vFold_zeros
  obtain ⟨news, h1, h2⟩ := ADB.addCore_eq db b ({ priority := 0, loc := l } : PData)
  unfold ALocal.vPrio
  rw [h1, ADB.view_mark]
  intro x hx
  obtain ⟨e, he, rfl⟩ := List.mem_map.1 hx
  rcases List.mem_append.1 he with he | he
  · exact h _ (List.mem_map.2 ⟨e, he, rfl⟩)
  · exact congrArg PData.priority (h2.mem e he).2.2

theorem AllZero.sums {db : ALocal} (h : AllZero db) : SumsOfEntries db := by
  intro d hd _
  rw [sum_zeros]
  · exact h _ (List.mem_map.2 ⟨d, hd, rfl⟩)
  · intro x hx
    obtain ⟨e, he, rfl⟩ := List.mem_map.1 hx
    exact h _ (List.mem_map.2 ⟨e, (List.mem_filter.1 he).1, rfl⟩)

/-- C78: an initialisation, with or without an existing remote directory, leaves a database of which this is true, also
if it fails. -/
theorem C78_init {env : Env} {w : World} (h : w.db = []) (b : Bool) : SumsOfEntries (init env b w).2.db := by
  have hw : AllZero w.db := by rw [h]; intro x hx; cases hx
  have := KeepsDB.init (P := AllZero) env b (fun f d => KeepsDB.modify (fun _ h => h.add _ _)) w hw
  unfold wp at this
  split at this
  all_goals
    rename_i e
    rw [e]
    exact this.sums

/-- C78: so it is true after every command of a history of successful ones, whoever has run it and whatever the daemons
have counted in between. Missing: what C69 does not cover. -/
theorem C78_history_partial {ι : Type} {E : ι → Env} (hE : ∀ c, EnvReady (E c)) (hrem : ∀ c d, (E c).rem = (E d).rem)
    {h : List (ι × World)} (hh : History E h) : ∀ x ∈ h, SumsOfEntries x.2.db := by
  induction hh with
  | first c w hi hd he hr =>
    intro x hx
    rw [List.mem_singleton] at hx
    subst hx
    exact C78_init hi.rows false
  | join c d v w h _ _ ha hd hs hu he hr ih =>
    intro x hx
    rcases List.mem_cons.1 hx with rfl | hx
    · exact C78_init ha.rows true
    · exact ih x hx
  | again c w w' h hh hed hd hr ih =>
    intro x hx
    rcases List.mem_cons.1 hx with rfl | hx
    · obtain ⟨r, k⟩ := C69_ready_partial hE hrem hh List.mem_cons_self hed hd (Or.inl rfl)
      refine C78_sync_partial r k hr ?_
      have a := C69_agree_partial hE hrem hh _ List.mem_cons_self
      refine C78_daemon hed.db ?_ (by rw [a.dbSaved]; exact ih _ List.mem_cons_self)
      rw [a.dbSaved]
      exact fun p hp => (a.user p ((a.same p).1 hp)).1
    · exact ih x hx
  | sync c d v w w' h hh hm hed hd hs hex hr ih =>
    intro x hx
    rcases List.mem_cons.1 hx with rfl | hx
    · obtain ⟨r, k⟩ := C69_ready_partial hE hrem hh (List.mem_cons_of_mem _ hm) hed hd (Or.inr ⟨hs, hex⟩)
      refine C78_sync_partial r k hr ?_
      have a := C69_agree_partial hE hrem hh _ (List.mem_cons_of_mem _ hm)
      refine C78_daemon hed.db ?_ (by rw [a.dbSaved]; exact ih _ (List.mem_cons_of_mem _ hm))
      rw [a.dbSaved]
      exact fun p hp => (a.user p ((a.same p).1 hp)).1
    · exact ih x hx

/-! ### Examples -/

/-- `d/b` has been deleted locally, and `d/c` is new. -/
def exSums : World := exWorld exEnvS
  [(["l".toList, "d".toList], .dir 1 1), (["r".toList, "d".toList], .dir 1 1),
    (["l".toList, "d".toList, "a".toList], .file 7 3 2), (["r".toList, "d".toList, "a".toList], .file 7 3 2),
    (["r".toList, "d".toList, "b".toList], .file 6 3 3), (["l".toList, "d".toList, "c".toList], .file 9 45 4)]
  [exRow ["d".toList] true 7 true, exRow ["d".toList, "a".toList] false 5 true, exRow ["d".toList, "b".toList] false 2 true]
  [exRRow ["d".toList] true, exRRow ["d".toList, "a".toList] false, exRRow ["d".toList, "b".toList] false] 1000

theorem exSums_ready : SyncReady exEnvS exSums :=
  syncReady_of_readyB (by decide +kernel) (fun _ => List.Perm.refl _) (by unfold Apart; decide +kernel)
    (fun _ => by show GoodStamp "19700101-000000".toList; decide +kernel) rfl

theorem exSums_calm : Calm exEnvS exSums :=
  calm_of_calmB (clear := fun p => p.all (fun c => decide (c ≠ "e".toList))) (by simp [exEnvS, exEnvE])
    (fun _ h => exEnvS_not_excluded (by decide +kernel) h) (by decide +kernel)

/-- The priority of `d` falls from 7 to 5. -/
theorem exSums_sync : (sync exEnvS exSums).1 = .ok () ∧
    (sync exEnvS exSums).2.db.map (fun e => (e.path, e.data.priority)) =
      [(["d".toList], 5), (["d".toList, "a".toList], 5), (["d".toList, "c".toList], 0)] := by decide +kernel

theorem exSums_sums : SumsOfEntries exSums.db := by
  intro d hd
  simp only [exSums, exWorld, exRow, List.mem_cons, List.not_mem_nil, or_false] at hd
  rcases hd with rfl | rfl | rfl
  · intro _; decide +kernel
  · rintro ⟨e, he, h⟩
    revert e
    decide +kernel
  · rintro ⟨e, he, h⟩
    revert e
    decide +kernel

example : SumsOfEntries (sync exEnvS exSums).2.db :=
  C78_sync_partial exSums_ready exSums_calm exSums_sync.1 exSums_sums

/-- Two clients, of which one has deleted a file in a directory. -/
example : SumsOfEntries exH4.db :=
  C78_history_partial exPair_ready (by decide) exHistory (false, exH4) List.mem_cons_self

end Verif
