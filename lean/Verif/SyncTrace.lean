import Verif.SyncAgree
import Verif.ALocalInv
/-
The rows of the profile database through a sync: the priorities of directories, and the empty updates.
-/
namespace Verif
open ADB ALocal

/-- The priority of every directory is the sum of those of its entries. -/
def PrioSums (a : ALocal) : Prop := AggV List.sum (vPrio a)

/-- Adding paths; the column may be wrong where the parents are recomputed. -/
theorem aggV_addBut {δ γ : Type} {f : δ → γ} {g : List γ → γ} {a : ADB δ} (h0 : ∀ p ∈ paths a, p ≠ [])
    {batch : List (Path × Bool)} {data : δ} (hne : ∀ p ∈ batch.map Prod.fst, p ≠ [])
    (hcl : ∀ q ∈ paths a, q.dropLast ∈ batch.map Prod.fst → q.dropLast ∈ paths a)
    (hv : ∀ x ∈ view f a, x.1 ∉ DB.parentsOf (batch.map Prod.fst) → kids (view f a) x.1 ≠ [] →
      x.2 = g ((kids (view f a) x.1).map Prod.snd)) :
    AggV g ((pathAncestry (DB.parentsOf ((DB.sortDepth Prod.fst batch).map Prod.fst))).foldl
      (vStep g) (view f (addCore a batch data))) := by
  obtain ⟨news, h1, h2⟩ := addCore_eq a batch data
  have hview : view f (addCore a batch data) = view f a ++ view f news := by
    rw [h1, view_mark]; simp [view]
  have hsort : ∀ p, p ∈ (DB.sortDepth Prod.fst batch).map Prod.fst ↔ p ∈ batch.map Prod.fst := by
    intro p; simp [DB.sortDepth]
  have hnews : ∀ x ∈ view f news, x.1 ∈ batch.map Prod.fst ∧ x.1 ∉ paths a := by
    intro x hx
    obtain ⟨e, he, rfl⟩ := List.mem_map.1 hx
    obtain ⟨r1, r2, _⟩ := h2.mem e he
    exact ⟨List.mem_map.2 ⟨_, r1, rfl⟩, r2⟩
  rw [hview]
  have hx0 : ∀ x ∈ view f a ++ view f news, x.1 ≠ [] := by
    intro x hx
    rcases List.mem_append.1 hx with hx | hx
    · exact h0 _ (fst_mem_view hx)
    · exact hne _ (hnews x hx).1
  apply aggV_parents hx0
  intro x hx hxp hk
  have hno : ∀ y ∈ view f news, y.1.dropLast ≠ x.1 := by
    intro y hy hyx
    apply hxp
    rw [DB.mem_parentsOf]
    exact ⟨hx0 x hx, y.1, (hsort _).2 (hnews y hy).1, hyx⟩
  rw [kids_append, kids_eq_nil hno, List.append_nil] at hk ⊢
  rcases List.mem_append.1 hx with hxa | hxn
  · exact hv x hxa (fun h => hxp ((parentsOf_congr hsort).2 h)) hk
  · obtain ⟨y, hy, hyx⟩ := exists_kid hk
    have hpar := hcl y.1 (fst_mem_view hy) (by rw [hyx]; exact (hnews x hxn).1)
    rw [hyx] at hpar
    exact absurd hpar (hnews x hxn).2

/-- Removing trees leaves the column right except at the parents. -/
theorem aggV_rmBut {δ γ : Type} {f : δ → γ} {g : List γ → γ} {a : ADB δ} (h0 : ∀ p ∈ paths a, p ≠ [])
    {ps : List Path} (hv : AggV g (view f a)) : ∀ x ∈ view f (rmCore a ps), x.1 ∉ DB.parentsOf ps →
      kids (view f (rmCore a ps)) x.1 ≠ [] → x.2 = g ((kids (view f (rmCore a ps)) x.1).map Prod.snd) := by
  rw [view_rmCore]
  intro x hx hxp hk
  obtain ⟨hxa, hxl⟩ := List.mem_filter.1 hx
  have hx0 := h0 _ (fst_mem_view hxa)
  have hkids : kids ((view f a).filter (fun x => !ps.any (fun p => p.isPrefixOf x.1))) x.1
      = kids (view f a) x.1 := by
    unfold kids
    rw [List.filter_filter]
    apply List.filter_congr
    intro y hy
    by_cases hyx : y.1.dropLast = x.1
    · have : ps.any (fun p => p.isPrefixOf y.1) = false := by
        rw [← Bool.not_eq_true, List.any_eq_true]
        rintro ⟨q, hq, hqy⟩
        rw [List.isPrefixOf_iff_prefix] at hqy
        by_cases hqe : q = y.1
        · apply hxp
          rw [DB.mem_parentsOf]
          exact ⟨hx0, q, hq, by rw [hqe, hyx]⟩
        · have := DB.prefix_dropLast_of_ne hqy hqe
          rw [hyx] at this
          simp only [Bool.not_eq_true', ← Bool.not_eq_true, List.any_eq_true] at hxl
          exact hxl ⟨q, hq, List.isPrefixOf_iff_prefix.2 this⟩
      simp [hyx, this]
    · simp [hyx]
  rw [hkids] at hk ⊢
  exact hv x hxa hk

theorem PrioSums.add {a : ALocal} (h : PrioSums a) (h0 : ∀ p ∈ paths a, p ≠ []) {b : List (Path × Bool)}
    (hne : ∀ p ∈ b.map Prod.fst, p ≠ [])
    (hcl : ∀ q ∈ paths a, q.dropLast ∈ b.map Prod.fst → q.dropLast ∈ paths a) (x : Rat) (l : Bool) :
    PrioSums (ALocal.addPaths a b x l) := by
  unfold PrioSums ALocal.addPaths
  rw [vPrio_refresh]
  exact aggV_addBut h0 hne hcl (fun y hy _ hk => h y hy hk)

theorem PrioSums.rm {a : ALocal} (h : PrioSums a) (h0 : ∀ p ∈ paths a, p ≠ []) (ps : List Path) :
    PrioSums (ALocal.rmPaths a ps) := by
  unfold PrioSums ALocal.rmPaths
  rw [vPrio_refresh]
  apply aggV_parents
  · intro x hx
    have := fst_mem_view hx
    exact h0 _ (mem_paths_rmCore.1 this).1
  · exact aggV_rmBut h0 h

/-- Renaming: the old paths go and new ones with the same parents come. -/
theorem PrioSums.rename {a : ALocal} (h : PrioSums a) (h0 : ∀ p ∈ paths a, p ≠ []) {ps : List Path}
    {b : List (Path × Bool)} (hne : ∀ p ∈ b.map Prod.fst, p ≠ [])
    (hcl : ∀ q ∈ paths (rmCore a ps), q.dropLast ∈ b.map Prod.fst → q.dropLast ∈ paths (rmCore a ps))
    (hpar : ∀ p ∈ ps, ∃ q ∈ b.map Prod.fst, q.dropLast = p.dropLast) (x : Rat) (l : Bool) :
    PrioSums (ALocal.addPaths (rmCore a ps) b x l) := by
  unfold PrioSums ALocal.addPaths
  rw [vPrio_refresh]
  refine aggV_addBut (fun p hp => h0 p (mem_paths_rmCore.1 hp).1) hne hcl (fun y hy hyp hk => ?_)
  refine aggV_rmBut h0 h y hy (fun hm => hyp ?_) hk
  obtain ⟨h1, p, hp, h2⟩ := DB.mem_parentsOf.1 hm
  obtain ⟨q, hq, h3⟩ := hpar p hp
  exact DB.mem_parentsOf.2 ⟨h1, q, hq, h3.trans h2⟩

/-- What is above a known path is known, in terms of parents. -/
theorem closed_rm {δ : Type} {a : ADB δ} (h : DB.ParentClosed (paths a)) (ps : List Path) :
    DB.ParentClosed (paths (rmCore a ps)) := by
  intro p hp h0
  obtain ⟨h1, h2⟩ := mem_paths_rmCore.1 hp
  exact mem_paths_rmCore.2 ⟨h p h1 h0, fun q hq hqp => h2 q hq (hqp.trans (List.dropLast_prefix p))⟩

/-! ### Recomputing what is right -/

theorem vStep_same {γ : Type} {g : List γ → γ} {v : List (Path × γ)} (h : AggV g v) {p : Path} (hk : kids v p ≠ []) :
    vStep g v p = v := by
  unfold vStep
  conv => rhs; rw [← List.map_id v]
  apply List.map_congr_left
  intro x hx
  by_cases hp : x.1 = p
  · rw [if_pos hp, ← hp, ← h x hx (by rw [hp]; exact hk)]; rfl
  · rw [if_neg hp]; rfl

theorem vFold_same {γ : Type} {g : List γ → γ} {v : List (Path × γ)} (h : AggV g v) {l : List Path}
    (hk : ∀ p ∈ l, kids v p ≠ []) : l.foldl (vStep g) v = v := by
  induction l with
  | nil => rfl
  | cons p l ih =>
    rw [List.foldl_cons, vStep_same h (hk p List.mem_cons_self)]
    exact ih (fun q hq => hk q (List.mem_cons_of_mem _ hq))

/-- Recomputing the priorities above known paths changes nothing. -/
theorem vPrio_refresh_same {a : ALocal} (h : PrioSums a) (hc : DB.ParentClosed (paths a)) {ps : List Path}
    (hps : ∀ p ∈ ps, p ∈ paths a) : vPrio (refresh a (DB.parentsOf ps)) = vPrio a := by
  rw [vPrio_refresh]
  refine vFold_same h (fun d hd => ?_)
  obtain ⟨d', h1, h2⟩ := mem_pathAncestry.1 hd
  obtain ⟨h3, p, hp, rfl⟩ := DB.mem_parentsOf.1 h1
  -- the entry of `d` on the way to `p`
  have hd0 : d ≠ [] := by
    rcases h2 with rfl | h2
    · exact h3
    · exact h2.1
  have hpre : d <+: p.dropLast := by
    rcases h2 with rfl | h2
    · exact List.prefix_refl _
    · exact h2.2
  have hp0 : p ≠ [] := by rintro rfl; exact h3 rfl
  obtain ⟨k, hk, hkd⟩ : ∃ k ∈ paths a, k.dropLast = d := by
    obtain ⟨t, ht⟩ := hpre
    have hpe : p = d ++ (t ++ [p.getLast hp0]) := by
      conv => lhs; rw [← List.dropLast_concat_getLast hp0, ← ht]
      rw [List.append_assoc]
    obtain ⟨c, u, hu⟩ := List.exists_cons_of_ne_nil (l := t ++ [p.getLast hp0]) (by simp)
    rw [hu] at hpe
    refine ⟨d ++ [c], ?_, List.dropLast_concat⟩
    exact hc.anc (hps p hp) (by simp) ⟨u, by rw [hpe]; simp⟩
  rw [← view_paths PData.priority] at hk
  obtain ⟨x, hx, rfl⟩ := List.mem_map.1 hk
  intro hn
  have : x ∈ kids (vPrio a) d := mem_kids.2 ⟨hx, hkd⟩
  rw [hn] at this; cases this

theorem vPrio_updateLoc {a : ALocal} (h : PrioSums a) (hc : DB.ParentClosed (paths a)) {ps : List Path}
    (hps : ∀ p ∈ ps, p ∈ paths a) (b : Bool) : vPrio (updatePaths a ps none none (some b)) = vPrio a := by
  unfold updatePaths
  simp only [updateOpt]
  have e1 : vPrio (updateWhere a ps (fun e => { e with data := { e.data with loc := b } })) = vPrio a :=
    view_updateWhere_keep _ _ _ _ (fun _ => rfl) (fun _ => rfl)
  have e2 := paths_updateWhere a ps (fun e => { e with data := { e.data with loc := b } }) (fun _ => rfl)
  rw [vPrio_refresh_same (by unfold PrioSums; rw [e1]; exact h) (by rw [e2]; exact hc) (by rw [e2]; exact hps), e1]

/-- Marking rows as local leaves the priorities as they are. -/
theorem vPrio_markLocal {a : ALocal} (h : PrioSums a) (hc : DB.ParentClosed (paths a)) {ps new : List Path}
    (hnew : ∀ p ∈ new, p ∈ paths a) : vPrio (markLocal a ps new) = vPrio a := by
  unfold markLocal
  have key : ∀ (ps : List Path) (b : ALocal), PrioSums b → DB.ParentClosed (paths b) →
      vPrio (ps.foldl (fun db p => updatePaths db (paths (rows db p)) none none (some true)) b) = vPrio b ∧
      paths (ps.foldl (fun db p => updatePaths db (paths (rows db p)) none none (some true)) b) = paths b := by
    intro ps
    induction ps with
    | nil => intro b _ _; exact ⟨rfl, rfl⟩
    | cons f ps ih =>
      intro b hb hcb
      rw [List.foldl_cons]
      have e1 := vPrio_updateLoc hb hcb (ps := paths (rows b f)) (fun p hp => (mem_rows_below.1 hp).1) true
      have e2 := paths_updatePaths b (paths (rows b f)) none none (some true)
      obtain ⟨e3, e4⟩ := ih (updatePaths b (paths (rows b f)) none none (some true))
        (by unfold PrioSums; rw [e1]; exact hb) (by rw [e2]; exact hcb)
      exact ⟨e3.trans e1, e4.trans e2⟩
  obtain ⟨e1, e2⟩ := key ps a h hc
  rw [vPrio_updateLoc (by unfold PrioSums; rw [e1]; exact h) (by rw [e2]; exact hc) (by rw [e2]; exact hnew), e1]

/-! ### Updates of nothing -/

theorem pathAncestry_nil : pathAncestry [] = [] := by decide +kernel

theorem refresh_nil (a : ALocal) : refresh a [] = a := by
  unfold refresh updateAgg
  rw [pathAncestry_nil]; rfl

theorem mark_nil {δ : Type} (a : ADB δ) : mark [] a = a := by
  unfold mark
  conv => rhs; rw [← List.map_id a]
  apply List.map_congr_left
  intro e _
  simp

theorem addCore_nil {δ : Type} (a : ADB δ) (d : δ) : addCore a [] d = a := mark_nil a

theorem addPaths_nil (a : ALocal) (x : Rat) (l : Bool) : ALocal.addPaths a [] x l = a := by
  unfold ALocal.addPaths
  rw [addCore_nil]
  exact refresh_nil a

theorem raddPaths_nil (a : ARemote) (now : Int) : ARemote.addPaths a [] now = a := addCore_nil a now

theorem rmCore_nil {δ : Type} (a : ADB δ) : rmCore a [] = a := by
  unfold rmCore
  simp

theorem rmPaths_nil (a : ALocal) : ALocal.rmPaths a [] = a := by
  unfold ALocal.rmPaths
  rw [rmCore_nil]
  exact refresh_nil a

/-! ### The steps of a sync -/

section
open Prog OSM Call FSTools WM
variable {env : Env} {w w1 w2 w3 w4 : World} {del : DeletedPaths} {new mod upd : UpdatedPaths}
  {cp : Path → Path} {DL DR : Path → Prop} {l : List Path}

/-- The parent of a path that is known or new locally is known or new locally. -/
theorem Scanned.closed0 (sc : Scanned env w del new mod w1) (r : SyncReady env w) (c : Calm env w) {q : Path}
    (h : q ∈ ADB.paths w.db ∨ q ∈ new.loc) (h0 : q.dropLast ≠ []) :
    q.dropLast ∈ ADB.paths w.db ∨ q.dropLast ∈ new.loc := by
  rcases h with h | h
  · exact Or.inl (c.closed q h _ (List.dropLast_prefix q) h0)
  · obtain ⟨hq0, n, hn, _, _, hx⟩ := (sc.newLocIff q).1 h
    by_cases hdb : q.dropLast ∈ ADB.paths w.db
    · exact Or.inl hdb
    · obtain ⟨a, b, hd⟩ := FS.isDir_iff.1 (r.wf.isDir_prefix hn (env.loc ++ q.dropLast)
        ((List.prefix_append_right_inj _).2 (List.dropLast_prefix q)) (fun e => by
          have := congrArg List.length (List.append_cancel_left e)
          have := List.length_pos_iff.2 hq0
          simp at *
          omega))
      refine Or.inr ((sc.newLocIff _).2 ⟨h0, _, hd, hdb, (fun ⟨_, _, h, _⟩ => by cases h), fun h1 => hx ?_⟩)
      exact ownExcludes_below h1 (List.dropLast_prefix q) ⟨n, hn⟩

theorem Scanned.closed1 (sc : Scanned env w del new mod w1) (r : SyncReady env w) (c : Calm env w) :
    DB.ParentClosed (ADB.paths w1.db) := by
  intro q hq h0
  rw [sc.dbIff] at hq ⊢
  rw [← or_assoc] at hq
  rcases hq with h | h
  · rcases sc.closed0 r c h h0 with h1 | h1
    · exact Or.inl h1
    · exact Or.inr (Or.inl h1)
  · obtain ⟨hu, ⟨n, hn⟩, _⟩ := (sc.newRemIff q).1 h
    by_cases hdb : q.dropLast ∈ ADB.paths w.db
    · exact Or.inl hdb
    · obtain ⟨a, b, hd⟩ := FS.isDir_iff.1 (r.wf.isDir_prefix hn (env.rem ++ q.dropLast)
        ((List.prefix_append_right_inj _).2 (List.dropLast_prefix q)) (fun e => by
          have := congrArg List.length (List.append_cancel_left e)
          have := List.length_pos_iff.2 hu.1
          simp at *
          omega))
      exact Or.inr (Or.inr ((sc.newRemIff _).2 ⟨PlainPath.user (hu.plain.prefix (List.dropLast_prefix q)) h0,
        ⟨_, hd⟩, hdb⟩))

theorem Fit.ne_nil {δ : Type} {fs : FS} {a : ADB δ} (f : Fit env fs a) : ∀ p ∈ ADB.paths a, p ≠ [] := by
  intro p hp
  obtain ⟨d, hd⟩ := f.path hp
  exact hd.user.1

theorem Scanned.prio1 (sc : Scanned env w del new mod w1) (r : SyncReady env w) (c : Calm env w)
    (h : PrioSums w.db) : PrioSums w1.db := by
  obtain ⟨db0, b0, b1, x, now, h0, h1, _, hb0, hb1⟩ := sc.tr
  have ne0 : ∀ p ∈ b0.map Prod.fst, p ≠ [] := fun p hp => ((sc.newLocIff p).1 ((hb0 p).1 hp)).1
  have ne1 : ∀ p ∈ b1.map Prod.fst, p ≠ [] := by
    intro p hp
    rcases (hb1 p).1 hp with h2 | h2
    · exact ((sc.newLocIff p).1 h2).1
    · exact ((sc.newRemIff p).1 h2).1.1
  have nedb := Fit.ne_nil r.db
  rw [h1]
  rcases h0 with rfl | rfl
  · refine h.add nedb ne1 (fun q hq hb => ?_) _ _
    exact c.closed q hq _ (List.dropLast_prefix q) (ne1 _ hb)
  · refine PrioSums.add (h.add nedb ne0 (fun q hq hb => ?_) _ _) ?_ ne1 (fun q hq hb => ?_) _ _
    · exact c.closed q hq _ (List.dropLast_prefix q) (ne0 _ hb)
    · intro p hp
      rcases mem_paths_addPaths.1 hp with h2 | h2
      · exact nedb p h2
      · exact ne0 p h2
    · rw [mem_paths_addPaths, hb0] at hq ⊢
      exact sc.closed0 r c hq (ne1 _ hb)

theorem rmFold_prio (pss : List (List Path)) {a : ALocal} (h0 : ∀ p ∈ ADB.paths a, p ≠ [])
    (hc : DB.ParentClosed (ADB.paths a)) (h : PrioSums a) :
    PrioSums (pss.foldl ALocal.rmPaths a) ∧ DB.ParentClosed (ADB.paths (pss.foldl ALocal.rmPaths a)) := by
  induction pss generalizing a with
  | nil => exact ⟨h, hc⟩
  | cons ps pss ih =>
    rw [List.foldl_cons]
    have e : ADB.paths (ALocal.rmPaths a ps) = ADB.paths (rmCore a ps) := paths_refresh _ _
    refine ih ?_ ?_ (h.rm h0 ps)
    · rw [e]; intro p hp; exact h0 p (mem_paths_rmCore.1 hp).1
    · rw [e]; exact closed_rm hc ps

theorem Steps3.prio2 (S : Steps3 env w del new mod w1 w2 upd w3 cp DL DR) (r : SyncReady env w) (c : Calm env w)
    (h : PrioSums w.db) : PrioSums w2.db ∧ DB.ParentClosed (ADB.paths w2.db) := by
  obtain ⟨A, B, k, _⟩ := S.cl.clearing
  obtain ⟨pss, h1, _⟩ := k.tr
  rw [h1]
  exact rmFold_prio pss (Fit.ne_nil S.sc.db) (S.sc.closed1 r c) (S.sc.prio1 r c h)

/-- One side of the conflicts: the rows of the older versions get their conflict names. -/
theorem rename_step {a : ALocal} (h : PrioSums a) (h0 : ∀ p ∈ ADB.paths a, p ≠ [])
    (hc : DB.ParentClosed (ADB.paths a)) {prs : List (Path × Path)}
    (hp : ∀ p q, (p, q) ∈ prs → q ≠ [] ∧ q.dropLast = p.dropLast ∧ (p.dropLast ≠ [] → p.dropLast ∈ ADB.paths a) ∧
      ∀ x y, (x, y) ∈ prs → ¬ x <+: p.dropLast) :
    let b := ALocal.addPaths (rmCore a (prs.map Prod.fst)) (batchOf (prs.map Prod.snd) []) 0 true
    PrioSums b ∧ (∀ p ∈ ADB.paths b, p ≠ []) ∧ DB.ParentClosed (ADB.paths b) := by
  have hb : ∀ q, q ∈ (batchOf (prs.map Prod.snd) []).map Prod.fst ↔ ∃ p, (p, q) ∈ prs := by
    intro q
    rw [map_fst_batchOf]
    constructor
    · rintro (h1 | h1)
      · obtain ⟨⟨p, q'⟩, h2, rfl⟩ := List.mem_map.1 h1
        exact ⟨p, h2⟩
      · cases h1
    · rintro ⟨p, h1⟩
      exact Or.inl (List.mem_map.2 ⟨_, h1, rfl⟩)
  have hne : ∀ q ∈ (batchOf (prs.map Prod.snd) []).map Prod.fst, q ≠ [] := by
    intro q hq
    obtain ⟨p, h1⟩ := (hb q).1 hq
    exact (hp p q h1).1
  have hcr := closed_rm hc (prs.map Prod.fst)
  refine ⟨?_, ?_, ?_⟩
  · refine h.rename h0 hne (fun q hq hm => hcr q hq (hne _ hm)) ?_ _ _
    intro p h1
    obtain ⟨⟨p', q⟩, h2, rfl⟩ := List.mem_map.1 h1
    exact ⟨q, (hb q).2 ⟨p', h2⟩, (hp p' q h2).2.1⟩
  · intro p h1
    rcases mem_paths_addPaths.1 h1 with h2 | h2
    · exact h0 p (mem_paths_rmCore.1 h2).1
    · exact hne p h2
  · intro q hq hq0
    rw [mem_paths_addPaths] at hq ⊢
    rcases hq with hq | hq
    · exact Or.inl (hcr q hq hq0)
    · obtain ⟨p, h1⟩ := (hb q).1 hq
      obtain ⟨_, h3, h4, h5⟩ := hp p q h1
      rw [h3] at hq0 ⊢
      refine Or.inl (mem_paths_rmCore.2 ⟨h4 hq0, ?_⟩)
      intro x hx
      obtain ⟨⟨x', y⟩, h6, rfl⟩ := List.mem_map.1 hx
      exact h5 x' y h6

/-- A path in a conflict is known. -/
theorem Steps.conflict_known (S : Steps env w del new mod w1 w2 upd w3 cp DL DR l w4) (r : SyncReady env w) {p : Path}
    (h : DL p ∨ DR p) : p ∈ ADB.paths w2.db := by
  obtain ⟨h1, _⟩ := S.rb.mem p h
  obtain ⟨a, b, h3, _⟩ := S.rb.ctx.both p h
  refine S.db_known r (S.rb.ctx.user p h).1 ?_ (Or.inl ⟨a, h3⟩)
  rw [S.sc.dbIff]
  rcases List.mem_append.1 h1 with h2 | h2
  · obtain ⟨_, _, _, h4⟩ := S.sc.modLoc p h2
    exact Or.inl h4
  · exact Or.inr (Or.inl h2)

/-- No path in a conflict is above a known path. -/
theorem Steps.conflict_leaf (S : Steps env w del new mod w1 w2 upd w3 cp DL DR l w4) {x p : Path}
    (hx : DL x ∨ DR x) (hp : p ∈ ADB.paths w2.db) (h : x <+: p) : x = p := by
  apply Classical.byContradiction
  intro hne
  obtain ⟨A, B, k, _⟩ := S.cl.clearing
  obtain ⟨d, f⟩ := k.fit_db.path hp
  obtain ⟨a, b, h1, _, h2, _⟩ := S.rb.ctx.both x hx
  have := f.aboveL x a h hne h1
  rw [h2] at this; cases this

theorem Steps.conflict_above (S : Steps env w del new mod w1 w2 upd w3 cp DL DR l w4) {x p : Path}
    (hx : DL x ∨ DR x) (hp : p ∈ ADB.paths w2.db) : ¬ x <+: p.dropLast := by
  intro h
  have h1 := S.conflict_leaf hx hp (h.trans (List.dropLast_prefix p))
  subst h1
  have h2 := h.length_le
  have h3 := List.length_pos_iff.2 (S.rb.ctx.user x hx).1.1
  simp at h2
  omega

theorem Steps.prio3 (S : Steps env w del new mod w1 w2 upd w3 cp DL DR l w4) (r : SyncReady env w) (c : Calm env w)
    (h : PrioSums w.db) : PrioSums w3.db ∧ (∀ p ∈ ADB.paths w3.db, p ≠ []) ∧ DB.ParentClosed (ADB.paths w3.db) := by
  obtain ⟨h2, hc2⟩ := S.toSteps3.prio2 r c h
  obtain ⟨A, B, k, _⟩ := S.cl.clearing
  obtain ⟨prsL, prsR, n1, n2, e, _, hL, hR⟩ := S.rb.tr
  rw [e]
  have par : ∀ x, DL x ∨ DR x → x.dropLast ≠ [] → x.dropLast ∈ ADB.paths w2.db := fun x hx h0 =>
    hc2 x (S.conflict_known r hx) h0
  obtain ⟨i1, i2, i3⟩ := rename_step h2 (Fit.ne_nil k.fit_db) hc2 (prs := prsL) (by
    intro p q hpq
    obtain ⟨h3, rfl⟩ := (hL p q).1 hpq
    refine ⟨(S.rb.ctx.cuser p (Or.inl h3)).1.1, S.rb.ctx.parent p (Or.inl h3), par p (Or.inl h3), ?_⟩
    intro x y hxy
    exact S.conflict_above (Or.inl ((hL x y).1 hxy).1) (S.conflict_known r (Or.inl h3)))
  refine rename_step i1 i2 i3 (prs := prsR) ?_
  intro p q hpq
  obtain ⟨h3, rfl⟩ := (hR p q).1 hpq
  refine ⟨(S.rb.ctx.cuser p (Or.inr h3)).1.1, S.rb.ctx.parent p (Or.inr h3), ?_, ?_⟩
  · intro h0
    refine mem_paths_addPaths.2 (Or.inl (mem_paths_rmCore.2 ⟨par p (Or.inr h3) h0, ?_⟩))
    intro x hx
    obtain ⟨⟨x', y⟩, h6, rfl⟩ := List.mem_map.1 hx
    exact S.conflict_above (Or.inl ((hL x' y).1 h6).1) (S.conflict_known r (Or.inr h3))
  · intro x y hxy
    exact S.conflict_above (Or.inr ((hR x y).1 hxy).1) (S.conflict_known r (Or.inr h3))

/-- The directory that something is uploaded to is known. -/
theorem Steps.parent3 (S : Steps env w del new mod w1 w2 upd w3 cp DL DR l w4) (r : SyncReady env w) (c : Calm env w)
    (hc2 : DB.ParentClosed (ADB.paths w2.db)) {q : Path} (hq : q ∈ upd.loc) (h0 : q.dropLast ≠ []) :
    q.dropLast ∈ ADB.paths w3.db := by
  have key : ∀ p, p ∈ ADB.paths w2.db → p.dropLast ≠ [] → p.dropLast ∈ ADB.paths w3.db := fun p hp h0 =>
    S.rb.db_keep _ (hc2 p hp h0) (fun x hx => S.conflict_above hx hp)
  have copy : ∀ p, DL p → q = cp p → q.dropLast ∈ ADB.paths w3.db := by
    rintro p hp rfl
    rw [S.rb.ctx.parent p (Or.inl hp)] at h0 ⊢
    exact key p (S.conflict_known r (Or.inl hp)) h0
  obtain ⟨_, ⟨h1, _⟩ | ⟨p, hp, e⟩⟩ := (S.rb.loc q).1 hq
  swap
  · exact copy p hp e
  obtain ⟨n, hn⟩ := S.ub.found q hq
  rcases S.rb.eff.loc_some r.apart hn with ⟨h2, _⟩ | ⟨p, hp, e, _⟩
  swap
  · exact copy p hp e
  refine key q (S.db_known r (S.rs.updLoc q hq).1 ?_ (Or.inl ⟨n, h2⟩)) h0
  rw [S.sc.dbIff]
  rcases List.mem_append.1 h1 with h3 | h3
  · obtain ⟨_, _, _, h4⟩ := S.sc.modLoc q h3
    exact Or.inl h4
  · exact Or.inr (Or.inl h3)

/-- The priorities of directories are right when the selection is made. -/
theorem Steps.prio4 (S : Steps env w del new mod w1 w2 upd w3 cp DL DR l w4) (r : SyncReady env w) (c : Calm env w)
    (h : PrioSums w.db) : PrioSums w4.db := by
  obtain ⟨h2, hc2⟩ := S.toSteps3.prio2 r c h
  obtain ⟨h3, ne3, hc3⟩ := S.prio3 r c h
  obtain ⟨db0, x, now, now', e0, e1, _⟩ := S.ub.tr
  have b0 : ∀ p, p ∈ (batchOf upd.loc []).map Prod.fst ↔ p ∈ upd.loc := by
    intro p; rw [map_fst_batchOf]; simp
  have b1 : ∀ p, p ∈ (batchOf (setOf (upd.loc ++ upd.rem)) []).map Prod.fst ↔ p ∈ upd.loc ∨ p ∈ upd.rem := by
    intro p; rw [map_fst_batchOf, mem_setOf, List.mem_append]; simp
  have ne0 : ∀ p ∈ (batchOf upd.loc []).map Prod.fst, p ≠ [] := fun p hp => ((S.rb.loc p).1 ((b0 p).1 hp)).1
  have ne1 : ∀ p ∈ (batchOf (setOf (upd.loc ++ upd.rem)) []).map Prod.fst, p ≠ [] := by
    intro p hp
    rcases (b1 p).1 hp with h5 | h5
    · exact ((S.rb.loc p).1 h5).1
    · exact ((S.rb.rem p).1 h5).1
  rw [e1]
  rcases e0 with rfl | rfl
  · exact h3.add ne3 ne1 (fun q hq hb => hc3 q hq (ne1 _ hb)) _ _
  · refine PrioSums.add (h3.add ne3 ne0 (fun q hq hb => hc3 q hq (ne0 _ hb)) _ _) ?_ ne1 (fun q hq hb => ?_) _ _
    · intro p hp
      rcases mem_paths_addPaths.1 hp with h2 | h2
      · exact ne3 p h2
      · exact ne0 p h2
    · rw [mem_paths_addPaths] at hq ⊢
      rcases hq with hq | hq
      · exact Or.inl (hc3 q hq (ne1 _ hb))
      · exact Or.inl (S.parent3 r c hc2 ((b0 q).1 hq) (ne1 _ hb))

end

end Verif
