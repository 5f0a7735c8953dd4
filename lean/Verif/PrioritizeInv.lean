import Verif.Prioritize
import Verif.ADBView
import Mathlib.Tactic.Ring
/-
Invariants of the two selection loops.
-/
namespace Verif
open ADB

/-! ### `mapM` on `Option` -/

theorem mapM_cons_some {α β : Type} {f : α → Option β} {a : α} {l : List α} {r : List β} :
    (a :: l).mapM f = some r ↔ ∃ b s, f a = some b ∧ l.mapM f = some s ∧ r = b :: s := by
  simp only [List.mapM_cons, Option.bind_eq_bind, Option.pure_def]
  cases hf : f a with
  | none => simp
  | some b =>
    cases hl : l.mapM f with
    | none => simp
    | some s => simp [eq_comm]

theorem mem_mapM {α β : Type} {f : α → Option β} {l : List α} {r : List β} (h : l.mapM f = some r)
    (b : β) : b ∈ r ↔ ∃ a ∈ l, f a = some b := by
  induction l generalizing r with
  | nil => simp at h; subst h; simp
  | cons a l ih =>
    obtain ⟨c, s, h1, h2, rfl⟩ := mapM_cons_some.1 h
    simp only [List.mem_cons, ih h2]
    constructor
    · rintro (rfl | ⟨x, hx, hxb⟩)
      · exact ⟨a, Or.inl rfl, h1⟩
      · exact ⟨x, Or.inr hx, hxb⟩
    · rintro ⟨x, rfl | hx, hxb⟩
      · left; rw [h1] at hxb; exact (Option.some.inj hxb).symm
      · exact Or.inr ⟨x, hx, hxb⟩

theorem map_mapM {α β γ : Type} {f : α → Option β} {g : α → γ} {k : β → γ}
    (hk : ∀ a b, f a = some b → k b = g a) {l : List α} {r : List β} (h : l.mapM f = some r) :
    r.map k = l.map g := by
  induction l generalizing r with
  | nil => simp at h; subst h; rfl
  | cons a l ih =>
    obtain ⟨c, s, h1, h2, rfl⟩ := mapM_cons_some.1 h
    simp [hk a c h1, ih h2]

theorem mapM_perm {α β : Type} {f : α → Option β} {l l' : List α} (hp : l.Perm l') {r : List β}
    (h : l.mapM f = some r) : ∃ r', l'.mapM f = some r' ∧ r.Perm r' := by
  induction hp generalizing r with
  | nil => exact ⟨r, h, List.Perm.refl _⟩
  | cons a _ ih =>
    obtain ⟨c, s, h1, h2, rfl⟩ := mapM_cons_some.1 h
    obtain ⟨s', h3, h4⟩ := ih h2
    exact ⟨c :: s', mapM_cons_some.2 ⟨c, s', h1, h3, rfl⟩, h4.cons c⟩
  | swap a b l =>
    obtain ⟨c, s, h1, h2, rfl⟩ := mapM_cons_some.1 h
    obtain ⟨d, t, h3, h4, rfl⟩ := mapM_cons_some.1 h2
    exact ⟨d :: c :: t, mapM_cons_some.2 ⟨d, _, h3, mapM_cons_some.2 ⟨c, t, h1, h4, rfl⟩, rfl⟩,
      List.Perm.swap _ _ _⟩
  | trans _ _ ih1 ih2 =>
    obtain ⟨r1, h1, p1⟩ := ih1 h
    obtain ⟨r2, h2, p2⟩ := ih2 h1
    exact ⟨r2, h2, p1.trans p2⟩

theorem mapM_perm_none {α β : Type} {f : α → Option β} {l l' : List α} (hp : l.Perm l')
    (h : l.mapM f = none) : l'.mapM f = none := by
  cases h' : l'.mapM f with
  | none => rfl
  | some r =>
    obtain ⟨r', h2, _⟩ := mapM_perm hp.symm h'
    rw [h] at h2; simp at h2

/-! ### Files -/

/-- The candidates that the loop of `prioritize_files` selects. -/
def accept (sl : Nat) : Int → List Cand → List Cand
  | _, [] => []
  | r, c :: cs => if r - c.size + sl > 0 then c :: accept sl (r - c.size + sl) cs
    else accept sl r cs

/-- What selecting `S` takes. -/
def cost (sl : Nat) (S : List Cand) : Int := (S.map (fun c => (c.size : Int) - sl)).sum

theorem selectFiles_eq (sl : Nat) (cs : List Cand) (r : Int) (acc : List Path) :
    selectFiles sl cs (r, acc)
      = (r - cost sl (accept sl r cs), acc ++ (accept sl r cs).map Cand.path) := by
  induction cs generalizing r acc with
  | nil => simp [selectFiles, accept, cost]
  | cons c cs ih =>
    simp only [selectFiles, accept]
    by_cases h : r - c.size + sl > 0
    · rw [if_pos h, if_pos h, ih]
      simp only [cost, List.map_cons, List.sum_cons, List.append_assoc, List.singleton_append,
        Prod.mk.injEq, and_true]
      omega
    · rw [if_neg h, if_neg h, ih]

theorem accept_sublist (sl : Nat) (r : Int) (cs : List Cand) : (accept sl r cs).Sublist cs := by
  induction cs generalizing r with
  | nil => exact List.Sublist.refl _
  | cons c cs ih =>
    simp only [accept]
    split
    · exact (ih _).cons_cons c
    · exact (ih _).cons c

theorem accept_pos (sl : Nat) (r : Int) (cs : List Cand) (h : accept sl r cs ≠ []) :
    0 < r - cost sl (accept sl r cs) := by
  induction cs generalizing r with
  | nil => simp [accept] at h
  | cons c cs ih =>
    simp only [accept] at h ⊢
    split
    · rename_i hc
      simp only [cost, List.map_cons, List.sum_cons]
      by_cases h' : accept sl (r - c.size + sl) cs = []
      · rw [h']; simp; omega
      · have := ih _ h'
        simp only [cost] at this
        omega
    · rename_i hc
      rw [if_neg hc] at h
      exact ih _ h

theorem accept_fits {sl : Nat} {cs : List Cand} (hs : ∀ c ∈ cs, sl ≤ c.size) {r : Int} {b : Cand}
    (hb : b ∈ accept sl r cs) : 0 < r - b.size + sl := by
  induction cs generalizing r with
  | nil => simp [accept] at hb
  | cons c cs ih =>
    simp only [accept] at hb
    have hc' := hs c (by simp)
    have hs' : ∀ c ∈ cs, sl ≤ c.size := fun x hx => hs x (by simp [hx])
    split at hb
    · rcases List.mem_cons.1 hb with rfl | hb
      · assumption
      · have := ih hs' hb
        omega
    · exact ih hs' hb

theorem accept_wins {sl : Nat} {l₁ l₂ : List Cand} {a b : Cand}
    (hs : ∀ c ∈ l₁ ++ a :: l₂, sl ≤ c.size) (hab : a.size ≤ b.size) {r : Int}
    (hnb : b ∉ l₁) (hb : b ∈ accept sl r (l₁ ++ a :: l₂)) : a ∈ accept sl r (l₁ ++ a :: l₂) := by
  induction l₁ generalizing r with
  | nil =>
    simp only [List.nil_append, accept] at hb ⊢
    by_cases h : r - a.size + sl > 0
    · rw [if_pos h]; simp
    · rw [if_neg h] at hb
      have := accept_fits (fun c hc => hs c (by simp [hc])) hb
      omega
  | cons c l₁ ih =>
    have hs' : ∀ x ∈ l₁ ++ a :: l₂, sl ≤ x.size := fun x hx => hs x (by
      simp only [List.cons_append, List.mem_cons]; exact Or.inr hx)
    simp only [List.mem_cons, not_or] at hnb
    simp only [List.cons_append, accept] at hb ⊢
    by_cases h : r - c.size + sl > 0
    · rw [if_pos h] at hb ⊢
      rcases List.mem_cons.1 hb with rfl | hb
      · exact absurd rfl hnb.1
      · exact List.mem_cons_of_mem _ (ih hs' hnb.2 hb)
    · rw [if_neg h] at hb ⊢
      exact ih hs' hnb.2 hb

theorem accept_maximal {sl : Nat} {cs : List Cand} (hs : ∀ c ∈ cs, sl ≤ c.size) {r : Int} {a : Cand}
    (ha : a ∈ cs) (hna : a ∉ accept sl r cs) :
    r - cost sl (accept sl r cs) - a.size + sl ≤ 0 := by
  have hcost : ∀ (cs : List Cand) (r : Int), (∀ c ∈ cs, sl ≤ c.size) →
      0 ≤ cost sl (accept sl r cs) := by
    intro cs r hs
    have : ∀ S : List Cand, (∀ c ∈ S, sl ≤ c.size) → 0 ≤ cost sl S := by
      intro S hS
      induction S with
      | nil => simp [cost]
      | cons c S ih =>
        have h1 := hS c (by simp)
        have h2 := ih (fun x hx => hS x (by simp [hx]))
        simp only [cost, List.map_cons, List.sum_cons] at h2 ⊢
        omega
    exact this _ (fun c hc => hs c ((accept_sublist sl r cs).subset hc))
  induction cs generalizing r with
  | nil => simp at ha
  | cons c cs ih =>
    have hs' : ∀ x ∈ cs, sl ≤ x.size := fun x hx => hs x (by simp [hx])
    simp only [accept] at hna ⊢
    by_cases h : r - c.size + sl > 0
    · rw [if_pos h] at hna ⊢
      simp only [List.mem_cons, not_or] at hna
      have ha' : a ∈ cs := (List.mem_cons.1 ha).resolve_left hna.1
      have := ih hs' ha' hna.2
      simp only [cost, List.map_cons, List.sum_cons] at this ⊢
      omega
    · rw [if_neg h] at hna ⊢
      rcases List.mem_cons.1 ha with rfl | ha'
      · have := hcost cs r hs'
        omega
      · exact ih hs' ha' hna

theorem fileCands_paths {env : SelEnv} {ex : List Path} {cs : List Cand}
    (h : fileCands env ex = some cs) : cs.map Cand.path
      = (env.loc.filter (fun e => !e.directory && !ex.any (fun x => x.isPrefixOf e.path))).map
        Entry.path := by
  unfold fileCands at h
  refine map_mapM ?_ h
  intro e c hc
  split at hc
  · simp only [Option.some.injEq] at hc; rw [← hc]
  · simp at hc

/-! ### Directories -/

theorem dirCands_paths {env : SelEnv} {cs : List Cand} (h : dirCands env = some cs) :
    cs.map Cand.path = (env.loc.filter (fun e => e.directory)).map Entry.path := by
  unfold dirCands at h
  refine map_mapM ?_ h
  intro e c hc
  rw [Option.map_eq_some_iff] at hc
  obtain ⟨s, _, rfl⟩ := hc
  rfl

/-- `p` is a known directory. -/
def IsDirIn (a : ALocal) (p : Path) : Prop := ∃ e ∈ a, e.path = p ∧ e.directory = true
/-- `p` is a known file. -/
def IsFileIn (a : ALocal) (p : Path) : Prop := ∃ e ∈ a, e.path = p ∧ e.directory = false

theorem sizeOf_mem {cs : List Cand} (hn : (cs.map Cand.path).Nodup) {c : Cand} (hc : c ∈ cs) :
    sizeOf cs c.path = c.size := by
  induction cs with
  | nil => simp at hc
  | cons d cs ih =>
    simp only [List.map_cons, List.nodup_cons] at hn
    unfold sizeOf
    rw [List.find?_cons]
    rcases List.mem_cons.1 hc with rfl | hc
    · simp
    · have : d.path ≠ c.path := by
        intro h; exact hn.1 (h ▸ List.mem_map_of_mem hc)
      simp only [this, decide_false]
      exact ih hn.2 hc

structure DirInv (env : SelEnv) (cs : List Cand) (limit : Int) (st : DirSel) : Prop where
  nodup : st.dirs.Nodup
  known : ∀ d ∈ st.dirs, IsDirIn env.loc d
  anti : ∀ d ∈ st.dirs, ∀ d' ∈ st.dirs, d <+: d' → d = d'
  sub : ∀ p, p ∈ st.subdirs ↔ IsDirIn env.loc p ∧ ∃ d ∈ st.dirs, d <+: p
  fnodup : st.files.Nodup
  file : ∀ p, p ∈ st.files ↔ IsFileIn env.loc p ∧ ∃ d ∈ st.dirs, d <+: p
  space : st.remaining = limit - nFiles env * env.symlinkSize
    - ((st.dirs.map (sizeOf cs)).sum : Nat) + st.files.length * env.symlinkSize
  fits : st.dirs = [] ∨ 0 ≤ st.remaining
  small : ∀ d ∈ st.dirs, (sizeOf cs d : Int) ≤ env.storageLimit

theorem mem_filter_path {a : ALocal} {P : Entry PData → Bool} {p : Path} :
    p ∈ (a.filter P).map Entry.path ↔ ∃ e ∈ a, e.path = p ∧ P e = true := by
  simp only [List.mem_map, List.mem_filter]
  constructor
  · rintro ⟨e, ⟨h1, h2⟩, h3⟩; exact ⟨e, h1, h3, h2⟩
  · rintro ⟨e, h1, h3, h2⟩; exact ⟨e, ⟨h1, h2⟩, h3⟩

theorem perm_of_nodup_mem {α : Type} {l l' : List α} (h1 : l.Nodup) (h2 : l'.Nodup)
    (h : ∀ x, x ∈ l ↔ x ∈ l') : l.Perm l' := by
  classical
  exact (List.perm_ext_iff_of_nodup h1 h2).2 h

theorem sum_filter_add {α : Type} (l : List α) (P : α → Bool) (f : α → Nat) :
    (l.map f).sum = ((l.filter P).map f).sum + ((l.filter (fun x => !P x)).map f).sum := by
  induction l with
  | nil => rfl
  | cons a l ih =>
    by_cases h : P a = true
    · simp only [List.map_cons, List.sum_cons, h, List.filter_cons, if_true, Bool.not_true,
        Bool.false_eq_true, if_false, ih]; omega
    · simp only [Bool.not_eq_true] at h
      simp only [List.map_cons, List.sum_cons, h, List.filter_cons, if_true, Bool.not_false,
        Bool.false_eq_true, if_false, ih]; omega

theorem dirInv_step {env : SelEnv} {cs : List Cand} {limit : Int} {st : DirSel} {c : Cand}
    (hn : (paths env.loc).Nodup) (hcn : (cs.map Cand.path).Nodup) (hc : c ∈ cs)
    (hcd : IsDirIn env.loc c.path) (w : DirInv env cs limit st) :
    DirInv env cs limit (dirStep env cs st c) := by
  unfold dirStep
  split
  · exact w
  split
  · exact w
  rename_i hns hsize
  have hcs : sizeOf cs c.path = c.size := sizeOf_mem hcn hc
  -- membership in the contained sets
  have memF : ∀ p, p ∈ ((rows env.loc c.path).filter (fun e => !e.directory)).map Entry.path ↔
      IsFileIn env.loc p ∧ c.path <+: p := by
    intro p
    rw [mem_filter_path]
    constructor
    · rintro ⟨e, he, rfl, hd⟩
      obtain ⟨he1, he2⟩ := List.mem_filter.1 he
      exact ⟨⟨e, he1, rfl, by simpa using hd⟩, List.isPrefixOf_iff_prefix.1 he2⟩
    · rintro ⟨⟨e, he, rfl, hd⟩, hp⟩
      exact ⟨e, List.mem_filter.2 ⟨he, List.isPrefixOf_iff_prefix.2 hp⟩, rfl, by simp [hd]⟩
  have memD : ∀ p, p ∈ ((rows env.loc c.path).filter (fun e => e.directory)).map Entry.path ↔
      IsDirIn env.loc p ∧ c.path <+: p := by
    intro p
    rw [mem_filter_path]
    constructor
    · rintro ⟨e, he, rfl, hd⟩
      obtain ⟨he1, he2⟩ := List.mem_filter.1 he
      exact ⟨⟨e, he1, rfl, hd⟩, List.isPrefixOf_iff_prefix.1 he2⟩
    · rintro ⟨⟨e, he, rfl, hd⟩, hp⟩
      exact ⟨e, List.mem_filter.2 ⟨he, List.isPrefixOf_iff_prefix.2 hp⟩, rfl, hd⟩
  have memR : ∀ p, p ∈ (rows env.loc c.path).map Entry.path ↔ p ∈ paths env.loc ∧ c.path <+: p := by
    intro p
    simp only [rows, List.mem_map, List.mem_filter, List.isPrefixOf_iff_prefix, paths]
    constructor
    · rintro ⟨e, ⟨h1, h2⟩, rfl⟩; exact ⟨⟨e, h1, rfl⟩, h2⟩
    · rintro ⟨⟨e, h1, rfl⟩, h2⟩; exact ⟨e, ⟨h1, h2⟩, rfl⟩
  have ndR : ((rows env.loc c.path).map Entry.path).Nodup :=
    hn.sublist (List.filter_sublist.map _)
  have ndF : (((rows env.loc c.path).filter (fun e => !e.directory)).map Entry.path).Nodup :=
    ndR.sublist (List.filter_sublist.map _)
  have hnod : ∀ d ∈ st.dirs, ¬ d <+: c.path := by
    intro d hd hdc
    exact hns ((w.sub _).2 ⟨hcd, d, hd, hdc⟩)
  dsimp only
  generalize hCF : ((rows env.loc c.path).filter (fun e => !e.directory)).map Entry.path = CF at *
  generalize hCD : ((rows env.loc c.path).filter (fun e => e.directory)).map Entry.path = CD at *
  split
  rotate_left
  · exact w
  rename_i hr
  -- the new list of directories
  have memDirs : ∀ d, d ∈ st.dirs.filter (fun p => decide (p ∉ CD)) ++ [c.path] ↔
      (d ∈ st.dirs ∧ ¬ c.path <+: d) ∨ d = c.path := by
    intro d
    simp only [List.mem_append, List.mem_filter, decide_eq_true_eq, List.mem_singleton, memD]
    constructor
    · rintro (⟨h1, h2⟩ | h)
      · exact Or.inl ⟨h1, fun h3 => h2 ⟨w.known d h1, h3⟩⟩
      · exact Or.inr h
    · rintro (⟨h1, h2⟩ | h)
      · exact Or.inl ⟨h1, fun h3 => h2 h3.2⟩
      · exact Or.inr h
  have below : ∀ p, (∃ d ∈ st.dirs.filter (fun p => decide (p ∉ CD)) ++ [c.path], d <+: p) ↔
      (∃ d ∈ st.dirs, d <+: p) ∨ c.path <+: p := by
    intro p
    constructor
    · rintro ⟨d, hd, hdp⟩
      rcases (memDirs d).1 hd with ⟨h1, _⟩ | rfl
      · exact Or.inl ⟨d, h1, hdp⟩
      · exact Or.inr hdp
    · rintro (⟨d, hd, hdp⟩ | hcp)
      · by_cases hcd' : c.path <+: d
        · exact ⟨c.path, (memDirs _).2 (Or.inr rfl), hcd'.trans hdp⟩
        · exact ⟨d, (memDirs d).2 (Or.inl ⟨hd, hcd'⟩), hdp⟩
      · exact ⟨c.path, (memDirs _).2 (Or.inr rfl), hcp⟩
  have hcnot : c.path ∉ st.dirs := fun h => hnod _ h (List.prefix_refl _)
  -- the sums
  have hsubs : (((((rows env.loc c.path).map Entry.path).filter (fun p => decide (p ∈ st.dirs))).map
      (sizeOf cs)).sum) = ((st.dirs.filter (fun p => decide (p ∈ CD))).map (sizeOf cs)).sum := by
    refine List.Perm.sum_nat (List.Perm.map _ (perm_of_nodup_mem (ndR.sublist List.filter_sublist)
      (w.nodup.sublist List.filter_sublist) ?_))
    intro p
    simp only [List.mem_filter, decide_eq_true_eq, memR, memD]
    constructor
    · rintro ⟨⟨_, h2⟩, h3⟩; exact ⟨h3, w.known p h3, h2⟩
    · rintro ⟨h3, ⟨e, he, rfl, _⟩, h2⟩; exact ⟨⟨List.mem_map_of_mem he, h2⟩, h3⟩
  have hsum := sum_filter_add st.dirs (fun p => decide (p ∈ CD)) (sizeOf cs)
  have hneg : st.dirs.filter (fun p => decide (p ∉ CD))
      = st.dirs.filter (fun p => !decide (p ∈ CD)) := by
    apply List.filter_congr; intro p _; simp
  refine ⟨?_, ?_, ?_, ?_, ?_, ?_, ?_, Or.inr hr, ?_⟩
  · rw [List.nodup_append]
    refine ⟨w.nodup.sublist List.filter_sublist, by simp, ?_⟩
    intro a ha b hb hab
    simp only [List.mem_singleton] at hb
    exact hcnot (by rw [← hb, ← hab]; exact (List.mem_filter.1 ha).1)
  · intro d hd
    rcases (memDirs d).1 hd with ⟨h1, _⟩ | rfl
    · exact w.known d h1
    · exact hcd
  · intro d hd d' hd' hdd
    rcases (memDirs d).1 hd with ⟨h1, h1'⟩ | h1 <;> rcases (memDirs d').1 hd' with ⟨h2, h2'⟩ | h2
    · exact w.anti d h1 d' h2 hdd
    · subst h2; exact absurd hdd (hnod d h1)
    · subst h1; exact absurd hdd h2'
    · rw [h1, h2]
  · intro p
    rw [List.mem_append, below, w.sub, memD]
    constructor
    · rintro (⟨h1, h2⟩ | ⟨h1, h2⟩)
      · exact ⟨h1, Or.inl h2⟩
      · exact ⟨h1, Or.inr h2⟩
    · rintro ⟨h1, h2 | h2⟩
      · exact Or.inl ⟨h1, h2⟩
      · exact Or.inr ⟨h1, h2⟩
  · rw [List.nodup_append]
    refine ⟨w.fnodup, ndF.sublist List.filter_sublist, ?_⟩
    intro a ha b hb hab
    have := (List.mem_filter.1 hb).2
    simp only [decide_eq_true_eq] at this
    exact this (hab ▸ ha)
  · intro p
    rw [List.mem_append, below, List.mem_filter, memF, decide_eq_true_eq, w.file]
    constructor
    · rintro (⟨h1, h2⟩ | ⟨⟨h1, h2⟩, _⟩)
      · exact ⟨h1, Or.inl h2⟩
      · exact ⟨h1, Or.inr h2⟩
    · rintro ⟨h1, h2 | h2⟩
      · exact Or.inl ⟨h1, h2⟩
      · by_cases h3 : ∃ d ∈ st.dirs, d <+: p
        · exact Or.inl ⟨h1, h3⟩
        · exact Or.inr ⟨⟨h1, h2⟩, by exact fun h => h3 h.2⟩
  · rw [w.space, hsubs, hneg, List.map_append, List.sum_append_nat]
    simp only [List.map_cons, List.map_nil, List.sum_cons, List.sum_nil, hcs, List.length_append]
    rw [hsum]
    push_cast
    ring
  · intro d hd
    rcases (memDirs d).1 hd with ⟨h1, _⟩ | rfl
    · exact w.small d h1
    · rw [hcs]; omega

theorem dirInv_fold {env : SelEnv} {cs : List Cand} {limit : Int}
    (hn : (paths env.loc).Nodup) (hcn : (cs.map Cand.path).Nodup)
    (hcd : ∀ c ∈ cs, IsDirIn env.loc c.path) :
    ∀ (l : List Cand) (st : DirSel), (∀ c ∈ l, c ∈ cs) → DirInv env cs limit st →
      DirInv env cs limit (l.foldl (dirStep env cs) st)
  | [], _, _, w => w
  | c :: l, st, hl, w => by
    rw [List.foldl_cons]
    exact dirInv_fold hn hcn hcd l _ (fun x hx => hl x (by simp [hx]))
      (dirInv_step hn hcn (hl c (by simp)) (hcd c (hl c (by simp))) w)

theorem dirInv_init (env : SelEnv) (cs : List Cand) (limit : Int) :
    DirInv env cs limit ⟨[], [], [], limit - nFiles env * env.symlinkSize⟩ :=
  ⟨by simp, by simp, by simp, by simp, by simp, by simp, by simp, by simp, by simp⟩

theorem prioritizeDirs_inv {env : SelEnv} {limit : Int} {sel : Selected}
    (hn : (paths env.loc).Nodup) (h : prioritizeDirs env limit = some sel) :
    ∃ cs st, dirCands env = some cs ∧ DirInv env cs limit st ∧ sel = (st.remaining, st.dirs) := by
  unfold prioritizeDirs at h
  rw [Option.map_eq_some_iff] at h
  obtain ⟨cs, h1, h2⟩ := h
  have hp := dirCands_paths h1
  have hcn : (cs.map Cand.path).Nodup := by
    rw [hp]; exact hn.sublist (List.filter_sublist.map _)
  have hcd : ∀ c ∈ cs, IsDirIn env.loc c.path := by
    intro c hc
    have : c.path ∈ cs.map Cand.path := List.mem_map_of_mem hc
    rw [hp, mem_filter_path] at this
    exact this
  exact ⟨cs, _, h1, dirInv_fold hn hcn hcd (rank cs) _ (fun c hc => (rank_perm cs).mem_iff.1 hc)
    (dirInv_init env cs limit), h2.symm⟩

end Verif
