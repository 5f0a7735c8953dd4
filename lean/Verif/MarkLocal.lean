import Verif.DBHistInv
import Verif.FilesManager
/-
Which rows `update_local` marks as local.
-/
namespace Verif
open ADB

section
variable {δ : Type}

theorem info_map {a : ADB δ} {g : Entry δ → Entry δ} (hg : ∀ e, (g e).path = e.path) (p : Path) :
    info (a.map g) p = (info a p).map g := by
  unfold info
  rw [List.find?_map]
  congr 2
  funext e
  simp [Function.comp, hg]

theorem info_updateWhere {a : ADB δ} {ps : List Path} {g : Entry δ → Entry δ} (hg : ∀ e, (g e).path = e.path)
    (hi : ∀ e, g (g e) = g e) (p : Path) :
    info (updateWhere a ps g) p = if p ∈ ps then (info a p).map g else info a p := by
  unfold updateWhere
  induction ps generalizing a with
  | nil => rfl
  | cons q ps ih =>
    rw [List.foldl_cons, ih, info_map (by intro e; split <;> simp [hg])]
    have hpath : ∀ e, info a p = some e → e.path = p := fun e h => by simpa using List.find?_some h
    cases h : info a p with
    | none => simp
    | some e =>
      have he := hpath e h
      by_cases hq : p = q
      · subst hq; simp [he, hi]
      · simp [he, hq]

theorem info_updateAgg {agg : List δ → δ → δ} {a : ADB δ} {ps : List Path} {p : Path} (hp : p ∉ pathAncestry ps) :
    info (updateAgg agg a ps) p = info a p := by
  unfold updateAgg
  generalize pathAncestry ps = l at hp
  induction l generalizing a with
  | nil => rfl
  | cons q l ih =>
    rw [List.foldl_cons, ih (fun h => hp (List.mem_cons_of_mem _ h))]
    unfold aggStep
    rw [info_map (by intro e; split <;> rfl)]
    cases h : info a p with
    | none => rfl
    | some e =>
      have he : e.path = p := by simpa using List.find?_some h
      have hq : p ≠ q := fun h => hp (by simp [h])
      simp [he, hq]

end

/-- What a mark is for a row. -/
def setLoc (b : Bool) (e : Entry PData) : Entry PData := { e with data := { e.data with loc := b } }

theorem not_ancestor_of_leaf {ps : List Path} {p : Path} (h : ∀ q ∈ ps, p <+: q → q = p) :
    p ∉ pathAncestry (DB.parentsOf ps) := by
  intro hp
  obtain ⟨d, hd, hpd⟩ := mem_pathAncestry.1 hp
  obtain ⟨hd0, q, hq, rfl⟩ := DB.mem_parentsOf.1 hd
  have hpre : p <+: q.dropLast := by
    rcases hpd with rfl | ⟨_, hpd⟩
    · exact List.prefix_refl _
    · exact hpd
  have he := h q hq (hpre.trans (List.dropLast_prefix q))
  have h1 := hpre.length_le
  have h2 : q ≠ [] := by rintro rfl; simp at hd0
  have h3 := List.length_pos_iff.2 h2
  rw [he] at h1 h3
  simp at h1
  omega

theorem info_updateLoc {a : ALocal} {ps : List Path} {p : Path} (b : Bool) (h : ∀ q ∈ ps, p <+: q → q = p) :
    info (ALocal.updatePaths a ps none none (some b)) p = if p ∈ ps then (info a p).map (setLoc b) else info a p := by
  unfold ALocal.updatePaths ALocal.refresh
  rw [info_updateAgg (not_ancestor_of_leaf h), info_updateAgg (not_ancestor_of_leaf h)]
  exact info_updateWhere (g := setLoc b) (fun _ => rfl) (fun _ => rfl) p

theorem paths_markLocal (db : ALocal) (ps new : List Path) : paths (markLocal db ps new) = paths db := by
  unfold markLocal
  rw [paths_updatePaths]
  induction ps generalizing db with
  | nil => rfl
  | cons f ps ih => rw [List.foldl_cons, ih, paths_updatePaths]

theorem mem_rows_below {a : ALocal} {f p : Path} : p ∈ paths (rows a f) ↔ p ∈ paths a ∧ f <+: p := by
  unfold rows paths
  simp only [List.mem_map, List.mem_filter, List.isPrefixOf_iff_prefix]
  constructor
  · rintro ⟨e, ⟨h1, h2⟩, rfl⟩; exact ⟨⟨e, h1, rfl⟩, h2⟩
  · rintro ⟨⟨e, h1, rfl⟩, h2⟩; exact ⟨e, ⟨h1, h2⟩, rfl⟩

/-- The row of a path without entries below it: not local if it is new, local if it is retained, and unchanged
otherwise. -/
theorem info_markLocal {db : ALocal} {ps new : List Path} {p : Path}
    (hdb : ∀ q ∈ paths db, p <+: q → q = p) (hnew : ∀ q ∈ new, p <+: q → q = p) {e : Entry PData}
    (he : info db p = some e) :
    info (markLocal db ps new) p =
      some (setLoc (if p ∈ new then false else if ∃ f ∈ ps, f <+: p then true else e.data.loc) e) := by
  have key : ∀ (ps : List Path) (db : ALocal) (e : Entry PData), (∀ q ∈ paths db, p <+: q → q = p) → info db p = some e →
      info (ps.foldl (fun db p => ALocal.updatePaths db (paths (rows db p)) none none (some true)) db) p =
        some (setLoc (if ∃ f ∈ ps, f <+: p then true else e.data.loc) e) := by
    intro ps
    induction ps with
    | nil => intro db e _ he; rw [List.foldl_nil, he]; simp [setLoc]
    | cons f ps ih =>
      intro db e hdb he
      have hp : p ∈ paths db := info_isSome.1 (by rw [he]; rfl)
      have h1 := info_updateLoc (a := db) true (fun q hq => hdb q ((mem_rows_below (f := f)).1 hq).1)
      have hd' : ∀ q ∈ paths (ALocal.updatePaths db (paths (rows db f)) none none (some true)), p <+: q → q = p := by
        rw [paths_updatePaths]; exact hdb
      rw [List.foldl_cons]
      by_cases hf : f <+: p
      · rw [if_pos (mem_rows_below.2 ⟨hp, hf⟩), he] at h1
        rw [ih _ _ hd' h1]
        simp [setLoc, hf]
      · rw [if_neg (fun h => hf (mem_rows_below.1 h).2), he] at h1
        rw [ih _ _ hd' h1]
        simp [hf]
  unfold markLocal
  rw [info_updateLoc false hnew, key ps db e hdb he]
  by_cases hn : p ∈ new
  · simp [hn, setLoc]
  · simp [hn]

end Verif
