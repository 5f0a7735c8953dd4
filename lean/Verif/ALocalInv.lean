import Verif.ADBView
import Verif.DBAdd
import Mathlib.Tactic.Ring
/-
The aggregate columns of the profile database along a call.
-/
namespace Verif
namespace ALocal
open ADB

/-- `SUM(priority)`. -/
abbrev vPrio (a : ALocal) : List (Path × Rat) := view PData.priority a
/-- The `local` column. -/
abbrev vLoc (a : ALocal) : List (Path × Bool) := view PData.loc a

/-- `COALESCE(MIN(local), 0)`. -/
def minLoc (l : List Bool) : Bool := !l.isEmpty && l.all (fun b => b)

theorem vPrio_refresh (a : ALocal) (ps : List Path) :
    vPrio (refresh a ps) = (pathAncestry ps).foldl (vStep List.sum) (vPrio a) := by
  unfold refresh vPrio
  rw [view_updateAgg_keep (agg := aggLocal) (fun _ _ => rfl),
    view_updateAgg (agg := aggPriority) (g := List.sum) (fun _ _ => rfl)]

theorem vLoc_refresh (a : ALocal) (ps : List Path) :
    vLoc (refresh a ps) = (pathAncestry ps).foldl (vStep minLoc) (vLoc a) := by
  unfold refresh vLoc
  rw [view_updateAgg (g := minLoc), view_updateAgg_keep (agg := aggPriority) (fun _ _ => rfl)]
  intro cs x
  simp only [aggLocal, minLoc, List.all_map]
  cases cs <;> rfl

/-- Well-formed tree of paths. -/
structure Tree {δ : Type} (a : ADB δ) : Prop where
  nodup : (paths a).Nodup
  ne : ∀ p ∈ paths a, p ≠ []
  closed : DB.ParentClosed (paths a)

/-- Both aggregates hold. -/
structure AggOK (a : ALocal) : Prop where
  prio : AggV List.sum (vPrio a)
  loc : AggV minLoc (vLoc a)

/-- The listed paths that have entries have a listed entry. -/
def EntryListed (known ps : List Path) : Prop :=
  ∀ p ∈ ps, (∃ k ∈ known, k.dropLast = p) → ∃ k ∈ ps, k.dropLast = p

theorem parents_ne {ps : List Path} : ∀ p ∈ DB.parentsOf ps, p ≠ [] :=
  fun _ hp => (DB.mem_parentsOf.1 hp).1

/-- Recomputing the ancestry of the parents repairs a column if the other paths
were fine. -/
theorem aggV_parents {γ : Type} {g : List γ → γ} {ps : List Path} {v : List (Path × γ)}
    (hv0 : ∀ x ∈ v, x.1 ≠ [])
    (hv : ∀ x ∈ v, x.1 ∉ DB.parentsOf ps → kids v x.1 ≠ [] →
      x.2 = g ((kids v x.1).map Prod.snd)) :
    AggV g ((pathAncestry (DB.parentsOf ps)).foldl (vStep g) v) := by
  apply aggV_recompute
  · exact pathAncestry_sorted _
  · exact pathAncestry_nodup _
  · exact ancestry_ne parents_ne
  · exact ancestry_closed _
  · exact hv0
  · intro x hx hxl
    exact hv x hx (fun h => hxl (mem_ancestry_self h))

theorem kids_append {γ : Type} (v w : List (Path × γ)) (p : Path) :
    kids (v ++ w) p = kids v p ++ kids w p := by simp [kids]

theorem kids_eq_nil {γ : Type} {v : List (Path × γ)} {p : Path}
    (h : ∀ x ∈ v, x.1.dropLast ≠ p) : kids v p = [] := by
  unfold kids
  rw [List.filter_eq_nil_iff]
  intro x hx
  simpa using h x hx

theorem exists_kid {γ : Type} {v : List (Path × γ)} {p : Path} (h : kids v p ≠ []) :
    ∃ x ∈ v, x.1.dropLast = p := by
  obtain ⟨x, xs, hx⟩ := List.exists_cons_of_ne_nil h
  have : x ∈ kids v p := by rw [hx]; simp
  exact ⟨x, mem_kids.1 this⟩

theorem fst_mem_view {δ γ : Type} {f : δ → γ} {a : ADB δ} {x : Path × γ} (hx : x ∈ view f a) :
    x.1 ∈ paths a := by
  rw [← view_paths f]; exact List.mem_map_of_mem hx

/-- Adding paths. -/
theorem aggV_add {δ γ : Type} {f : δ → γ} {g : List γ → γ} {a : ADB δ} (t : Tree a)
    {batch : List (Path × Bool)} {data : δ} (hne : ∀ p ∈ batch.map Prod.fst, p ≠ [])
    (hv : AggV g (view f a)) :
    AggV g ((pathAncestry (DB.parentsOf ((DB.sortDepth Prod.fst batch).map Prod.fst))).foldl
      (vStep g) (view f (addCore a batch data))) := by
  obtain ⟨news, h1, h2⟩ := addCore_eq a batch data
  have hview : view f (addCore a batch data) = view f a ++ view f news := by
    rw [h1, view_mark]; simp [view]
  have hsort : ∀ p, p ∈ (DB.sortDepth Prod.fst batch).map Prod.fst ↔ p ∈ batch.map Prod.fst := by
    intro p; simp [DB.sortDepth]
  have hnews : ∀ x ∈ view f news, x.1 ∈ batch.map Prod.fst ∧ x.1 ∉ paths a := by
    intro x hx
    obtain ⟨e, he, rfl⟩ := List.mem_map.1 hx
    obtain ⟨r1, r2, _⟩ := h2.mem e he
    exact ⟨List.mem_map.2 ⟨_, r1, rfl⟩, r2⟩
  rw [hview]
  apply aggV_parents
  · intro x hx
    rcases List.mem_append.1 hx with hx | hx
    · exact t.ne _ (fst_mem_view hx)
    · exact hne _ (hnews x hx).1
  · intro x hx hxp hk
    have hx0 : x.1 ≠ [] := by
      rcases List.mem_append.1 hx with hx | hx
      · exact t.ne _ (fst_mem_view hx)
      · exact hne _ (hnews x hx).1
    have hno : ∀ y ∈ view f news, y.1.dropLast ≠ x.1 := by
      intro y hy hyx
      apply hxp
      rw [DB.mem_parentsOf]
      exact ⟨hx0, y.1, (hsort _).2 (hnews y hy).1, hyx⟩
    rw [kids_append, kids_eq_nil hno, List.append_nil] at hk ⊢
    rcases List.mem_append.1 hx with hxa | hxn
    · exact hv x hxa hk
    · obtain ⟨y, hy, hyx⟩ := exists_kid hk
      have hpar := t.closed y.1 (fst_mem_view hy) (by rw [hyx]; exact hx0)
      rw [hyx] at hpar
      exact absurd hpar (hnews x hxn).2

/-- Updating a column of some paths. -/
theorem aggV_update {γ : Type} {g : List γ → γ} {ps : List Path} {v v' : List (Path × γ)}
    (hv0 : ∀ x ∈ v, x.1 ≠ []) (hoff : OffEq ps v v') (hv : AggV g v)
    (hl : EntryListed (v.map Prod.fst) ps) :
    AggV g ((pathAncestry (DB.parentsOf ps)).foldl (vStep g) v') := by
  have hv0' : ∀ x ∈ v', x.1 ≠ [] := by
    intro x hx
    have : x.1 ∈ v'.map Prod.fst := List.mem_map_of_mem hx
    rw [hoff.fst] at this
    obtain ⟨y, hy, hyx⟩ := List.mem_map.1 this
    rw [← hyx]; exact hv0 y hy
  apply aggV_parents hv0'
  intro x hx hxp hk
  have hno : ∀ q ∈ ps, q.dropLast ≠ x.1 := by
    intro q hq hqx
    apply hxp
    rw [DB.mem_parentsOf]
    exact ⟨hv0' x hx, q, hq, hqx⟩
  rw [hoff.kids hno] at hk ⊢
  have hxps : x.1 ∉ ps := by
    intro hxps
    obtain ⟨y, hy, hyx⟩ := exists_kid hk
    obtain ⟨k, hk1, hk2⟩ := hl x.1 hxps ⟨y.1, List.mem_map_of_mem hy, hyx⟩
    exact hno k hk1 hk2
  exact hv x ((hoff.mem hxps).1 hx) hk

/-- Removing trees. -/
theorem aggV_rm {δ γ : Type} {f : δ → γ} {g : List γ → γ} {a : ADB δ} (t : Tree a)
    {ps : List Path} (hv : AggV g (view f a)) :
    AggV g ((pathAncestry (DB.parentsOf ps)).foldl (vStep g) (view f (rmCore a ps))) := by
  rw [view_rmCore]
  apply aggV_parents
  · intro x hx
    exact t.ne _ (fst_mem_view (List.mem_filter.1 hx).1)
  · intro x hx hxp hk
    obtain ⟨hxa, hxl⟩ := List.mem_filter.1 hx
    have hx0 := t.ne _ (fst_mem_view hxa)
    have hkids : kids ((view f a).filter (fun x => !ps.any (fun p => p.isPrefixOf x.1))) x.1
        = kids (view f a) x.1 := by
      unfold kids
      rw [List.filter_filter]
      apply List.filter_congr
      intro y hy
      by_cases hyx : y.1.dropLast = x.1
      · have : ps.any (fun p => p.isPrefixOf y.1) = false := by
          rw [← Bool.not_eq_true, List.any_eq_true]
          rintro ⟨q, hq, hqy⟩
          rw [List.isPrefixOf_iff_prefix] at hqy
          by_cases hqe : q = y.1
          · apply hxp
            rw [DB.mem_parentsOf]
            exact ⟨hx0, q, hq, by rw [hqe, hyx]⟩
          · have := DB.prefix_dropLast_of_ne hqy hqe
            rw [hyx] at this
            simp only [Bool.not_eq_true', ← Bool.not_eq_true, List.any_eq_true] at hxl
            exact hxl ⟨q, hq, List.isPrefixOf_iff_prefix.2 this⟩
        simp [hyx, this]
      · simp [hyx]
    rw [hkids] at hk ⊢
    exact hv x hxa hk

theorem sum_map_mul (l : List Rat) (c : Rat) : (l.map (· * c)).sum = l.sum * c := by
  induction l with
  | nil => simp
  | cons x l ih => rw [List.map_cons, List.sum_cons, List.sum_cons, ih]; ring

theorem vPrio_adjust (a : ALocal) (c : Rat) :
    vPrio (adjustAll a c) = (vPrio a).map (fun x => (x.1, x.2 * c)) := by
  simp [view, adjustAll, Function.comp_def]

theorem vLoc_adjust (a : ALocal) (c : Rat) : vLoc (adjustAll a c) = vLoc a := by
  simp [view, adjustAll, Function.comp_def]

theorem aggOK_adjust {a : ALocal} (w : AggOK a) (c : Rat) : AggOK (adjustAll a c) := by
  refine ⟨?_, by rw [vLoc_adjust]; exact w.loc⟩
  rw [vPrio_adjust]
  have hk : ∀ p, kids ((vPrio a).map (fun x => (x.1, x.2 * c))) p
      = (kids (vPrio a) p).map (fun x => (x.1, x.2 * c)) := by
    intro p
    unfold kids
    rw [List.filter_map]
    rfl
  intro x hx hkx
  obtain ⟨y, hy, rfl⟩ := List.mem_map.1 hx
  rw [hk] at hkx ⊢
  simp only [ne_eq, List.map_eq_nil_iff] at hkx
  have := w.prio y hy hkx
  simp only [List.map_map]
  rw [show (Prod.snd ∘ fun x : Path × Rat => (x.1, x.2 * c)) = (· * c) ∘ Prod.snd from rfl,
    ← List.map_map, sum_map_mul, ← this]

theorem aggOK_addPaths {a : ALocal} (t : Tree a) (w : AggOK a) {batch : List (Path × Bool)}
    (hne : ∀ p ∈ batch.map Prod.fst, p ≠ []) (x : Rat) (l : Bool) :
    AggOK (addPaths a batch x l) := by
  refine ⟨?_, ?_⟩
  · unfold addPaths; rw [vPrio_refresh]; exact aggV_add t hne w.prio
  · unfold addPaths; rw [vLoc_refresh]; exact aggV_add t hne w.loc

theorem aggOK_updatePaths {a : ALocal} (t : Tree a) (w : AggOK a) {ps : List Path}
    (hl : EntryListed (paths a) ps) (d : Option Bool) (x : Option Rat) (l : Option Bool) :
    AggOK (updatePaths a ps d x l) := by
  have hoff : ∀ {γ : Type} (f : PData → γ), OffEq ps (view f a)
      (view f (updateOpt (updateOpt (updateOpt a ps d (fun d e => { e with directory := d })) ps x
        (fun x e => { e with data := { e.data with priority := x } })) ps l
        (fun b e => { e with data := { e.data with loc := b } }))) := by
    intro γ f
    refine OffEq.trans (offEq_updateOpt f a ps d (fun d e => { e with directory := d })
      (fun _ _ => rfl)) ?_
    refine OffEq.trans (offEq_updateOpt f _ ps x
      (fun x e => { e with data := { e.data with priority := x } }) (fun _ _ => rfl)) ?_
    exact offEq_updateOpt f _ ps l
      (fun b e => { e with data := { e.data with loc := b } }) (fun _ _ => rfl)
  refine ⟨?_, ?_⟩
  · unfold updatePaths; rw [vPrio_refresh]
    exact aggV_update (fun x hx => t.ne _ (fst_mem_view hx)) (hoff _) w.prio
      (by rw [view_paths]; exact hl)
  · unfold updatePaths; rw [vLoc_refresh]
    exact aggV_update (fun x hx => t.ne _ (fst_mem_view hx)) (hoff _) w.loc
      (by rw [view_paths]; exact hl)

theorem aggOK_rmPaths {a : ALocal} (t : Tree a) (w : AggOK a) (ps : List Path) :
    AggOK (rmPaths a ps) := by
  refine ⟨?_, ?_⟩
  · unfold rmPaths; rw [vPrio_refresh]; exact aggV_rm t w.prio
  · unfold rmPaths; rw [vLoc_refresh]; exact aggV_rm t w.loc

theorem aggOK_increment {a : ALocal} (t : Tree a) (w : AggOK a) {ps : List Path}
    (hl : EntryListed (paths a) ps) (x : Rat) : AggOK (increment a ps x) := by
  refine ⟨?_, ?_⟩
  · unfold increment vPrio
    rw [view_updateAgg (agg := aggPriority) (g := List.sum) (fun _ _ => rfl)]
    exact aggV_update (fun x hx => t.ne _ (fst_mem_view hx))
      (offEq_updateWhere _ a ps _ (fun _ => rfl)) w.prio (by rw [view_paths]; exact hl)
  · unfold increment vLoc
    rw [view_updateAgg_keep (agg := aggPriority) (fun _ _ => rfl),
      view_updateWhere_keep _ _ _ (fun e : Entry PData =>
        { e with data := { e.data with priority := e.data.priority + x } }) (fun _ => rfl)
      (fun _ => rfl)]
    exact w.loc

end ALocal
end Verif
