import Verif.ADB
import Mathlib.Tactic.Tauto
import Batteries.Data.List.Basic
/-
Lemmas about the abstract tree database: which paths an operation keeps, and
how the aggregate columns of directories are recomputed. One column of the
database is looked at as a list of `(path, value)`, a *view*.
-/
namespace Verif
variable {δ γ : Type}

/-- One column. -/
def ADB.view (f : δ → γ) (a : ADB δ) : List (Path × γ) := a.map (fun e => (e.path, f e.data))

/-- The immediate entries of `p`. -/
def kids (v : List (Path × γ)) (p : Path) : List (Path × γ) :=
  v.filter (fun x => decide (x.1.dropLast = p))

/-- Every path with entries has the value `g` of its entries' values. -/
def AggV (g : List γ → γ) (v : List (Path × γ)) : Prop :=
  ∀ x ∈ v, kids v x.1 ≠ [] → x.2 = g ((kids v x.1).map Prod.snd)

/-- Recompute one path. -/
def vStep (g : List γ → γ) (v : List (Path × γ)) (p : Path) : List (Path × γ) :=
  v.map (fun x => if x.1 = p then (x.1, g ((kids v p).map Prod.snd)) else x)

theorem mem_kids {v : List (Path × γ)} {p : Path} {x : Path × γ} :
    x ∈ kids v p ↔ x ∈ v ∧ x.1.dropLast = p := by simp [kids]

theorem kids_vStep {g : List γ → γ} {v : List (Path × γ)} {p q : Path} (hq : q.dropLast ≠ p) :
    kids (vStep g v q) p = kids v p := by
  show List.filter _ (vStep g v q) = List.filter _ v
  unfold vStep
  rw [List.filter_map]
  have : (v.filter ((fun x : Path × γ => decide (x.1.dropLast = p)) ∘ fun x =>
      if x.1 = q then (x.1, g ((kids v q).map Prod.snd)) else x))
      = v.filter (fun x => decide (x.1.dropLast = p)) := by
    apply List.filter_congr
    intro x _
    simp only [Function.comp]
    split <;> rfl
  rw [this]
  conv => rhs; rw [← List.map_id (v.filter _)]
  apply List.map_congr_left
  intro x hx
  have hx' : x.1.dropLast = p := by simpa using (List.mem_filter.1 hx).2
  have : x.1 ≠ q := by rintro rfl; exact hq hx'
  simp [this]

theorem fst_vStep (g : List γ → γ) (v : List (Path × γ)) (q : Path) :
    (vStep g v q).map Prod.fst = v.map Prod.fst := by
  simp only [vStep, List.map_map]
  apply List.map_congr_left
  intro x _
  simp only [Function.comp]
  split <;> rfl

theorem kids_vFold {g : List γ → γ} {p : Path} (l : List Path) (hl : ∀ q ∈ l, q.dropLast ≠ p)
    (v : List (Path × γ)) : kids (l.foldl (vStep g) v) p = kids v p := by
  induction l generalizing v with
  | nil => rfl
  | cons q l ih =>
    rw [List.foldl_cons, ih (fun r hr => hl r (List.mem_cons_of_mem _ hr)),
      kids_vStep (hl q (by simp))]

theorem fst_vFold (g : List γ → γ) (l : List Path) (v : List (Path × γ)) :
    (l.foldl (vStep g) v).map Prod.fst = v.map Prod.fst := by
  induction l generalizing v with
  | nil => rfl
  | cons q l ih => rw [List.foldl_cons, ih, fst_vStep]

theorem mem_vFold_of_not {g : List γ → γ} (l : List Path) {v : List (Path × γ)} {x : Path × γ}
    (hx : x.1 ∉ l) : x ∈ l.foldl (vStep g) v ↔ x ∈ v := by
  induction l generalizing v with
  | nil => rfl
  | cons q l ih =>
    rw [List.foldl_cons, ih (fun h => hx (List.mem_cons_of_mem _ h))]
    have hq : x.1 ≠ q := fun h => hx (by simp [h])
    simp only [vStep, List.mem_map]
    constructor
    · rintro ⟨y, hy, rfl⟩
      by_cases hyq : y.1 = q
      · rw [if_pos hyq] at hq
        exact absurd hyq hq
      · rw [if_neg hyq]; exact hy
    · intro hxv
      exact ⟨x, hxv, by simp [hq]⟩

theorem vFold_mem {g : List γ → γ} (l : List Path) (hs : l.Pairwise (fun a b => b.length ≤ a.length))
    (hn : l.Nodup) (hne : ∀ q ∈ l, q ≠ []) {v : List (Path × γ)} {x : Path × γ}
    (hx : x ∈ l.foldl (vStep g) v) (hxl : x.1 ∈ l) :
    x.2 = g ((kids (l.foldl (vStep g) v) x.1).map Prod.snd) := by
  induction l generalizing v with
  | nil => simp at hxl
  | cons q l ih =>
    rw [List.foldl_cons] at hx ⊢
    rw [List.pairwise_cons] at hs
    rw [List.nodup_cons] at hn
    by_cases hxq : x.1 ∈ l
    · exact ih hs.2 hn.2 (fun r hr => hne r (List.mem_cons_of_mem _ hr)) hx hxq
    · have hxq' : x.1 = q := by
        rcases List.mem_cons.1 hxl with h | h
        · exact h
        · exact absurd h hxq
      have hx1 := (mem_vFold_of_not l hxq).1 hx
      have hq0 : q ≠ [] := hne q (by simp)
      have hnot : ∀ r ∈ q :: l, r.dropLast ≠ q := by
        intro r hr hrq
        have hlen : r.length ≤ q.length := by
          rcases List.mem_cons.1 hr with h | h
          · rw [h]; exact Nat.le_refl _
          · exact hs.1 r h
        have := congrArg List.length hrq
        have := List.length_pos_iff.2 hq0
        simp at *; omega
      rw [hxq', kids_vFold l (fun r hr => hnot r (List.mem_cons_of_mem _ hr)),
        kids_vStep (hnot q (by simp))]
      simp only [vStep, List.mem_map] at hx1
      obtain ⟨y, hy, rfl⟩ := hx1
      by_cases hyq : y.1 = q
      · rw [if_pos hyq]
      · rw [if_neg hyq] at hxq'
        exact absurd hxq' hyq

theorem aggV_recompute {g : List γ → γ} (l : List Path)
    (hs : l.Pairwise (fun a b => b.length ≤ a.length)) (hn : l.Nodup) (hne : ∀ q ∈ l, q ≠ [])
    (hcl : ∀ q ∈ l, q.dropLast ≠ [] → q.dropLast ∈ l) {v : List (Path × γ)}
    (hv0 : ∀ x ∈ v, x.1 ≠ [])
    (hv : ∀ x ∈ v, x.1 ∉ l → kids v x.1 ≠ [] → x.2 = g ((kids v x.1).map Prod.snd)) :
    AggV g (l.foldl (vStep g) v) := by
  intro x hx hk
  by_cases hxl : x.1 ∈ l
  · exact vFold_mem l hs hn hne hx hxl
  · have hxv := (mem_vFold_of_not l hxl).1 hx
    have hkids := kids_vFold (g := g) (p := x.1) l (by
      intro q hq hqx
      apply hxl
      rw [← hqx]
      exact hcl q hq (by rw [hqx]; exact hv0 x hxv)) v
    rw [hkids] at hk ⊢
    exact hv x hxv hxl hk

/-! ### The ancestry list of the program -/

theorem ancestry_ne {ps : List Path} (h : ∀ p ∈ ps, p ≠ []) : ∀ q ∈ pathAncestry ps, q ≠ [] := by
  intro q hq
  obtain ⟨p, hp, h'⟩ := mem_pathAncestry.1 hq
  rcases h' with rfl | ⟨h0, _⟩
  · exact h _ hp
  · exact h0

theorem ancestry_closed (ps : List Path) :
    ∀ q ∈ pathAncestry ps, q.dropLast ≠ [] → q.dropLast ∈ pathAncestry ps := by
  intro q hq h0
  obtain ⟨p, hp, h'⟩ := mem_pathAncestry.1 hq
  rw [mem_pathAncestry]
  refine ⟨p, hp, Or.inr ⟨h0, ?_⟩⟩
  rcases h' with rfl | ⟨_, h1⟩
  · exact List.dropLast_prefix _
  · exact (List.dropLast_prefix q).trans h1

theorem mem_ancestry_self {ps : List Path} {p : Path} (h : p ∈ ps) : p ∈ pathAncestry ps :=
  mem_pathAncestry.2 ⟨p, h, Or.inl rfl⟩

namespace ADB

theorem view_aggStep {agg : List δ → δ → δ} {f : δ → γ} {g : List γ → γ}
    (hf : ∀ cs x, f (agg cs x) = g (cs.map f)) (a : ADB δ) (p : Path) :
    view f (aggStep agg a p) = vStep g (view f a) p := by
  simp only [view, aggStep, vStep, List.map_map]
  apply List.map_congr_left
  intro e _
  simp only [Function.comp]
  by_cases h : e.path = p
  · simp only [h, if_true, hf]
    congr 2
    simp only [children, kids, List.filter_map, List.map_map]
    rfl
  · simp [h]

theorem view_aggStep_keep {agg : List δ → δ → δ} {f : δ → γ} (hf : ∀ cs x, f (agg cs x) = f x)
    (a : ADB δ) (p : Path) : view f (aggStep agg a p) = view f a := by
  simp only [view, aggStep, List.map_map]
  apply List.map_congr_left
  intro e _
  simp only [Function.comp]
  by_cases h : e.path = p
  · simp only [h, if_true, hf]
  · simp [h]

theorem view_updateAgg {agg : List δ → δ → δ} {f : δ → γ} {g : List γ → γ}
    (hf : ∀ cs x, f (agg cs x) = g (cs.map f)) (a : ADB δ) (ps : List Path) :
    view f (updateAgg agg a ps) = (pathAncestry ps).foldl (vStep g) (view f a) := by
  unfold updateAgg
  generalize pathAncestry ps = l
  induction l generalizing a with
  | nil => rfl
  | cons p l ih => rw [List.foldl_cons, List.foldl_cons, ih, view_aggStep hf]

theorem view_updateAgg_keep {agg : List δ → δ → δ} {f : δ → γ} (hf : ∀ cs x, f (agg cs x) = f x)
    (a : ADB δ) (ps : List Path) : view f (updateAgg agg a ps) = view f a := by
  unfold updateAgg
  generalize pathAncestry ps = l
  induction l generalizing a with
  | nil => rfl
  | cons p l ih => rw [List.foldl_cons, ih, view_aggStep_keep hf]

theorem view_paths (f : δ → γ) (a : ADB δ) : (view f a).map Prod.fst = paths a := by
  simp [view, paths, Function.comp_def]

theorem paths_aggStep (agg : List δ → δ → δ) (a : ADB δ) (p : Path) :
    (aggStep agg a p).map (fun e => (e.path, e.directory)) = a.map (fun e => (e.path, e.directory)) := by
  simp only [aggStep, List.map_map]
  apply List.map_congr_left
  intro e _
  simp only [Function.comp]
  split <;> rfl

theorem pathDir_updateAgg (agg : List δ → δ → δ) (a : ADB δ) (ps : List Path) :
    (updateAgg agg a ps).map (fun e => (e.path, e.directory))
      = a.map (fun e => (e.path, e.directory)) := by
  unfold updateAgg
  generalize pathAncestry ps = l
  induction l generalizing a with
  | nil => rfl
  | cons p l ih => rw [List.foldl_cons, ih, paths_aggStep]

theorem paths_of_pathDir {a b : ADB δ} (h : a.map (fun e => (e.path, e.directory))
    = b.map (fun e => (e.path, e.directory))) : paths a = paths b := by
  have := congrArg (List.map Prod.fst) h
  simpa [paths, Function.comp_def] using this

theorem paths_updateAgg (agg : List δ → δ → δ) (a : ADB δ) (ps : List Path) :
    paths (updateAgg agg a ps) = paths a := paths_of_pathDir (pathDir_updateAgg agg a ps)

/-! ### updateWhere -/

/-- `v'` differs from `v` at most in the values of the paths in `S`. -/
def OffEq (S : List Path) (v v' : List (Path × γ)) : Prop :=
  List.Forall₂ (fun x y => x.1 = y.1 ∧ (x.1 ∉ S → x = y)) v v'

theorem OffEq.refl (S : List Path) (v : List (Path × γ)) : OffEq S v v := by
  induction v with
  | nil => exact List.Forall₂.nil
  | cons x v ih => exact List.Forall₂.cons ⟨rfl, fun _ => rfl⟩ ih

theorem OffEq.trans {S : List Path} {u v w : List (Path × γ)} (h1 : OffEq S u v)
    (h2 : OffEq S v w) : OffEq S u w := by
  unfold OffEq at *
  induction h1 generalizing w with
  | nil => cases h2; exact List.Forall₂.nil
  | cons hab _ ih =>
    cases h2 with
    | cons hbc t =>
      refine List.Forall₂.cons ⟨hab.1.trans hbc.1, fun h => ?_⟩ (ih t)
      rw [hab.2 h]; exact hbc.2 (hab.1 ▸ h)

theorem OffEq.kids {S : List Path} {v v' : List (Path × γ)} (h : OffEq S v v') {p : Path}
    (hp : ∀ q ∈ S, q.dropLast ≠ p) : Verif.kids v' p = Verif.kids v p := by
  unfold OffEq at h
  induction h with
  | nil => rfl
  | @cons x y l l' hxy _ ih =>
    simp only [Verif.kids] at ih ⊢
    by_cases hx : x.1.dropLast = p
    · have hxS : x.1 ∉ S := fun hm => hp _ hm hx
      have := hxy.2 hxS
      subst this
      rw [List.filter_cons_of_pos (by simpa using hx), List.filter_cons_of_pos (by simpa using hx), ih]
    · rw [List.filter_cons_of_neg (by rw [← hxy.1]; simpa using hx),
        List.filter_cons_of_neg (by simpa using hx), ih]

theorem OffEq.mem {S : List Path} {v v' : List (Path × γ)} (h : OffEq S v v') {x : Path × γ}
    (hx : x.1 ∉ S) : x ∈ v' ↔ x ∈ v := by
  unfold OffEq at h
  induction h with
  | nil => simp
  | @cons y z l l' hyz _ ih =>
    simp only [List.mem_cons, ih]
    by_cases hy : y.1 ∈ S
    · constructor
      · rintro (rfl | h)
        · exact absurd (hyz.1 ▸ hy) hx
        · exact Or.inr h
      · rintro (rfl | h)
        · exact absurd hy hx
        · exact Or.inr h
    · rw [hyz.2 hy]

theorem OffEq.fst {S : List Path} {v v' : List (Path × γ)} (h : OffEq S v v') :
    v'.map Prod.fst = v.map Prod.fst := by
  unfold OffEq at h
  induction h with
  | nil => rfl
  | cons hxy _ ih => rw [List.map_cons, List.map_cons, ih, hxy.1]

theorem offEq_updateWhere (f : δ → γ) (a : ADB δ) (ps : List Path) (g : Entry δ → Entry δ)
    (hg : ∀ e, (g e).path = e.path) : OffEq ps (view f a) (view f (updateWhere a ps g)) := by
  unfold updateWhere
  have key : ∀ (l : List Path), (∀ p ∈ l, p ∈ ps) → ∀ a : ADB δ, OffEq ps (view f a)
      (view f (l.foldl (fun a p => a.map (fun e => if e.path = p then g e else e)) a)) := by
    intro l
    induction l with
    | nil => intro _ a; exact OffEq.refl _ _
    | cons p l ih =>
      intro hl a
      rw [List.foldl_cons]
      refine OffEq.trans ?_ (ih (fun q hq => hl q (List.mem_cons_of_mem _ hq)) _)
      have hp := hl p (by simp)
      clear ih hl
      induction a with
      | nil => exact List.Forall₂.nil
      | cons e a iha =>
        refine List.Forall₂.cons ⟨?_, ?_⟩ iha
        · dsimp only; split
          · rw [hg]
          · rfl
        · intro hne
          dsimp only at hne ⊢
          have : e.path ≠ p := by rintro rfl; exact hne hp
          simp [this]
  exact key ps (fun _ h => h) a

theorem view_updateWhere_keep (f : δ → γ) (a : ADB δ) (ps : List Path) (g : Entry δ → Entry δ)
    (hg : ∀ e, (g e).path = e.path) (hf : ∀ e, f (g e).data = f e.data) :
    view f (updateWhere a ps g) = view f a := by
  unfold updateWhere
  induction ps generalizing a with
  | nil => rfl
  | cons p l ih =>
    rw [List.foldl_cons, ih]
    simp only [view, List.map_map]
    apply List.map_congr_left
    intro e _
    simp only [Function.comp]
    split
    · rw [hg, hf]
    · rfl

theorem paths_updateWhere (a : ADB δ) (ps : List Path) (g : Entry δ → Entry δ)
    (hg : ∀ e, (g e).path = e.path) : paths (updateWhere a ps g) = paths a := by
  have := (offEq_updateWhere (fun _ => ()) a ps g hg).fst
  rwa [view_paths, view_paths] at this

theorem paths_updateOpt {α : Type} (a : ADB δ) (ps : List Path) (o : Option α)
    (g : α → Entry δ → Entry δ) (hg : ∀ v e, (g v e).path = e.path) :
    paths (updateOpt a ps o g) = paths a := by
  cases o with
  | none => rfl
  | some v => exact paths_updateWhere a ps (g v) (hg v)

theorem offEq_updateOpt {α : Type} (f : δ → γ) (a : ADB δ) (ps : List Path) (o : Option α)
    (g : α → Entry δ → Entry δ) (hg : ∀ v e, (g v e).path = e.path) :
    OffEq ps (view f a) (view f (updateOpt a ps o g)) := by
  cases o with
  | none => exact OffEq.refl _ _
  | some v => exact offEq_updateWhere f a ps (g v) (hg v)

/-! ### addCore -/

theorem view_mark (f : δ → γ) (ps : List Path) (a : ADB δ) : view f (mark ps a) = view f a := by
  simp only [view, mark, List.map_map]
  apply List.map_congr_left
  intro e _
  simp only [Function.comp]
  split <;> rfl

/-- What the insertions append. -/
structure News (a : ADB δ) (batch : List (Path × Bool)) (data : δ) (news : ADB δ) : Prop where
  mem : ∀ e ∈ news, (e.path, e.directory) ∈ batch ∧ e.path ∉ paths a ∧ e.data = data
  nodup : (paths news).Nodup
  all : ∀ p ∈ batch.map Prod.fst, p ∈ paths a ∨ p ∈ paths news

theorem insert_foldl (a : ADB δ) (batch : List (Path × Bool)) (data : δ) :
    ∃ news, batch.foldl (fun acc e => insert ⟨e.1, e.2, data⟩ acc) a = a ++ news ∧
      News a batch data news := by
  have key : ∀ (l : List (Path × Bool)), (∀ e ∈ l, e ∈ batch) → ∀ ex : ADB δ,
      (∀ e ∈ ex, (e.path, e.directory) ∈ batch ∧ e.path ∉ paths a ∧ e.data = data) →
      (paths ex).Nodup →
      ∃ news, l.foldl (fun acc e => insert ⟨e.1, e.2, data⟩ acc) (a ++ ex) = a ++ news ∧
        (∀ e ∈ news, (e.path, e.directory) ∈ batch ∧ e.path ∉ paths a ∧ e.data = data) ∧
        (paths news).Nodup ∧ (∀ e ∈ ex, e ∈ news) ∧
        (∀ p ∈ l.map Prod.fst, p ∈ paths a ∨ p ∈ paths news) := by
    intro l
    induction l with
    | nil => intro _ ex h1 h2; exact ⟨ex, rfl, h1, h2, fun _ h => h, by simp⟩
    | cons e l ih =>
      intro hl ex h1 h2
      rw [List.foldl_cons]
      have hl' : ∀ e ∈ l, e ∈ batch := fun x hx => hl x (List.mem_cons_of_mem _ hx)
      by_cases hin : (a ++ ex).any (fun x => decide (x.path = e.1)) = true
      · have hs : insert ⟨e.1, e.2, data⟩ (a ++ ex) = a ++ ex := by
          unfold insert; rw [if_pos hin]
        rw [hs]
        obtain ⟨news, r1, r2, r3, r4, r5⟩ := ih hl' ex h1 h2
        refine ⟨news, r1, r2, r3, r4, ?_⟩
        intro p hp
        rw [List.map_cons, List.mem_cons] at hp
        rcases hp with rfl | hp
        · rw [List.any_eq_true] at hin
          obtain ⟨x, hx, hx2⟩ := hin
          have hx2 : x.path = e.1 := by simpa using hx2
          rcases List.mem_append.1 hx with hx | hx
          · left; rw [← hx2]; exact List.mem_map_of_mem hx
          · right; rw [← hx2]; exact List.mem_map_of_mem (r4 x hx)
        · exact r5 p hp
      · have hs : insert ⟨e.1, e.2, data⟩ (a ++ ex) = a ++ (ex ++ [⟨e.1, e.2, data⟩]) := by
          unfold insert; rw [if_neg hin, List.append_assoc]
        rw [hs]
        have hnot : ∀ x ∈ a ++ ex, x.path ≠ e.1 := by
          intro x hx hxe
          apply hin
          rw [List.any_eq_true]
          exact ⟨x, hx, by simpa using hxe⟩
        obtain ⟨news, r1, r2, r3, r4, r5⟩ := ih hl' (ex ++ [⟨e.1, e.2, data⟩]) (by
            intro x hx
            rcases List.mem_append.1 hx with hx | hx
            · exact h1 x hx
            · simp at hx; subst hx
              refine ⟨hl e (by simp), ?_, rfl⟩
              intro hm
              obtain ⟨y, hy, hy2⟩ := List.mem_map.1 hm
              exact hnot y (by simp [hy]) hy2)
          (by
            simp only [paths, List.map_append, List.nodup_append]
            refine ⟨h2, by simp, ?_⟩
            intro p hp q hq hpq
            simp at hq
            obtain ⟨y, hy, hy2⟩ := List.mem_map.1 hp
            exact hnot y (by simp [hy]) (by rw [hy2, hpq, hq]))
        refine ⟨news, r1, r2, r3, fun x hx => r4 x (by simp [hx]), ?_⟩
        intro p hp
        rw [List.map_cons, List.mem_cons] at hp
        rcases hp with rfl | hp
        · right
          exact List.mem_map.2 ⟨_, r4 ⟨e.1, e.2, data⟩ (by simp), rfl⟩
        · exact r5 p hp
  obtain ⟨news, r1, r2, r3, _, r5⟩ := key batch (fun _ h => h) [] (by simp) (by simp [paths])
  rw [List.append_nil] at r1
  exact ⟨news, r1, ⟨r2, r3, r5⟩⟩

theorem parentsOf_congr {l l' : List Path} (h : ∀ p, p ∈ l ↔ p ∈ l') {q : Path} :
    q ∈ DB.parentsOf l ↔ q ∈ DB.parentsOf l' := by
  have key : ∀ (l : List Path) (acc : List Path),
      q ∈ l.foldl (fun acc p => if p.dropLast ≠ [] then setAdd p.dropLast acc else acc) acc ↔
        q ∈ acc ∨ (q ≠ [] ∧ ∃ p ∈ l, p.dropLast = q) := by
    intro l
    induction l with
    | nil => intro acc; simp
    | cons p l ih =>
      intro acc
      rw [List.foldl_cons, ih]
      by_cases h0 : p.dropLast = []
      · rw [if_neg (by simpa using h0)]
        simp only [List.mem_cons, exists_eq_or_imp]
        constructor
        · rintro (h | ⟨h, h'⟩)
          · exact Or.inl h
          · exact Or.inr ⟨h, Or.inr h'⟩
        · rintro (h | ⟨h, h' | h'⟩)
          · exact Or.inl h
          · exact absurd (h'.symm.trans h0) h
          · exact Or.inr ⟨h, h'⟩
      · rw [if_pos h0, mem_setAdd]
        simp only [List.mem_cons, exists_eq_or_imp]
        constructor
        · rintro ((h | h) | ⟨h, h'⟩)
          · exact Or.inr ⟨h ▸ h0, Or.inl h.symm⟩
          · exact Or.inl h
          · exact Or.inr ⟨h, Or.inr h'⟩
        · rintro (h | ⟨h, h' | h'⟩)
          · exact Or.inl (Or.inr h)
          · exact Or.inl (Or.inl h'.symm)
          · exact Or.inr ⟨h, h'⟩
  unfold DB.parentsOf
  rw [key, key]
  simp only [List.not_mem_nil, false_or]
  constructor
  · rintro ⟨h0, p, hp, r⟩; exact ⟨h0, p, (h p).1 hp, r⟩
  · rintro ⟨h0, p, hp, r⟩; exact ⟨h0, p, (h p).2 hp, r⟩

/-- `add_paths` appends the new entries and marks parents. -/
theorem addCore_eq (a : ADB δ) (batch : List (Path × Bool)) (data : δ) :
    ∃ news, addCore a batch data
        = mark (DB.parentsOf ((DB.sortDepth Prod.fst batch).map Prod.fst)) (a ++ news) ∧
      News a batch data news := by
  obtain ⟨news, h1, h2⟩ := insert_foldl a (DB.sortDepth Prod.fst batch) data
  refine ⟨news, by unfold addCore; simp only [h1], ?_⟩
  refine ⟨?_, h2.nodup, ?_⟩
  · intro e he
    obtain ⟨r1, r2⟩ := h2.mem e he
    exact ⟨by simpa [DB.sortDepth] using r1, r2⟩
  · intro p hp
    apply h2.all
    simpa [DB.sortDepth] using hp

theorem paths_mark (ps : List Path) (a : ADB δ) : paths (mark ps a) = paths a := by
  have := view_mark (fun _ => ()) ps a
  rw [← view_paths (fun _ => ()), this, view_paths]

theorem mem_paths_addCore {a : ADB δ} {batch : List (Path × Bool)} {data : δ} {p : Path} :
    p ∈ paths (addCore a batch data) ↔ p ∈ paths a ∨ p ∈ batch.map Prod.fst := by
  obtain ⟨news, h1, h2⟩ := addCore_eq a batch data
  rw [h1, paths_mark]
  simp only [paths, List.map_append, List.mem_append]
  constructor
  · rintro (h | h)
    · exact Or.inl h
    · obtain ⟨e, he, rfl⟩ := List.mem_map.1 h
      exact Or.inr (List.mem_map.2 ⟨_, (h2.mem e he).1, rfl⟩)
  · rintro (h | h)
    · exact Or.inl h
    · exact h2.all p h

theorem nodup_addCore {a : ADB δ} {batch : List (Path × Bool)} {data : δ} (ha : (paths a).Nodup) :
    (paths (addCore a batch data)).Nodup := by
  obtain ⟨news, h1, h2⟩ := addCore_eq a batch data
  rw [h1, paths_mark]
  simp only [paths, List.map_append, List.nodup_append]
  refine ⟨ha, h2.nodup, ?_⟩
  intro p hp q hq hpq
  obtain ⟨e, he, rfl⟩ := List.mem_map.1 hq
  exact (h2.mem e he).2.1 (hpq ▸ hp)

/-! ### rmCore -/

theorem mem_paths_rmCore {a : ADB δ} {ps : List Path} {p : Path} :
    p ∈ paths (rmCore a ps) ↔ p ∈ paths a ∧ ∀ q ∈ ps, ¬ q <+: p := by
  simp only [paths, rmCore, List.mem_map, List.mem_filter, Bool.not_eq_true',
    ← Bool.not_eq_true, List.any_eq_true, List.isPrefixOf_iff_prefix]
  constructor
  · rintro ⟨e, ⟨h1, h2⟩, rfl⟩
    exact ⟨⟨e, h1, rfl⟩, fun q hq hqe => h2 ⟨q, hq, hqe⟩⟩
  · rintro ⟨⟨e, h1, rfl⟩, h2⟩
    refine ⟨e, ⟨h1, ?_⟩, rfl⟩
    rintro ⟨q, hq, hqe⟩
    exact h2 q hq hqe

theorem view_rmCore (f : δ → γ) (a : ADB δ) (ps : List Path) :
    view f (rmCore a ps) = (view f a).filter (fun x => !ps.any (fun p => p.isPrefixOf x.1)) := by
  simp only [view, rmCore, List.filter_map]
  rfl

end ADB
end Verif
