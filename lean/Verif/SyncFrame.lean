import Verif.Steady
import Verif.UpdateLocal
import Verif.Props.C19_Conflicts
/-
Relations between file systems for reasoning about a whole sync, and what a sync keeps true of both directories and
the databases.
-/
namespace Verif
open Prog OSM Call FSTools WM

/-! ### What may have changed -/

/-- Where `P` does not hold, nothing has changed apart from mtimes of directories. -/
structure Frame (P : Path → Prop) (fs fs' : FS) : Prop where
  data : ∀ q, ¬ P q → (fs'.get q).map Node.data = (fs.get q).map Node.data
  same : ∀ q n, ¬ P q → fs.get q = some n → n.isDir = false → fs'.get q = some n

namespace Frame
variable {P P' : Path → Prop} {a b c : FS}

theorem refl (P : Path → Prop) (fs : FS) : Frame P fs fs := ⟨fun _ _ => rfl, fun _ _ _ h _ => h⟩

theorem trans (h1 : Frame P a b) (h2 : Frame P b c) : Frame P a c :=
  ⟨fun q hq => (h2.data q hq).trans (h1.data q hq),
   fun q n hq hn hd => h2.same q n hq (h1.same q n hq hn hd) hd⟩

theorem mono (h : Frame P a b) (hP : ∀ q, P q → P' q) : Frame P' a b :=
  ⟨fun q hq => h.data q (fun x => hq (hP q x)), fun q n hq => h.same q n (fun x => hq (hP q x))⟩

theorem of_eq (h : ∀ q, ¬ P q → b.get q = a.get q) : Frame P a b :=
  ⟨fun q hq => by rw [h q hq], fun q n hq hn _ => by rw [h q hq]; exact hn⟩

theorem none (h : Frame P a b) {q : Path} (hq : ¬ P q) (hn : a.get q = none) : b.get q = none := by
  have := h.data q hq
  rw [hn] at this
  simpa using this

end Frame

/-! ### The same kinds of files, or fewer -/

/-- A relative path that is not in the util directory; it may be empty. -/
def PlainPath (p : Path) : Prop := p.head? ≠ some Env.utilName

theorem UserPath.plain {p : Path} (h : UserPath p) : PlainPath p := h.2

theorem plain_nil : PlainPath [] := by simp [PlainPath]

theorem PlainPath.user {p : Path} (h : PlainPath p) (h0 : p ≠ []) : UserPath p := ⟨h0, h⟩

theorem PlainPath.prefix {p q : Path} (h : PlainPath p) (hq : q <+: p) : PlainPath q := by
  cases q with
  | nil => exact plain_nil
  | cons c q =>
    obtain ⟨t, rfl⟩ := hq
    exact h

theorem PlainPath.extend {p q : Path} (h : UserPath p) (hq : p <+: q) : UserPath q := by
  obtain ⟨t, rfl⟩ := hq
  cases p with
  | nil => exact absurd rfl h.1
  | cons c p => exact ⟨by simp, h.2⟩

/-- What is in `root` in the second state was there in the first, of the same kind. -/
def LessAt (root : Path) (fs fs' : FS) : Prop :=
  ∀ p, PlainPath p → ∀ n', fs'.get (root ++ p) = some n' →
    ∃ n, fs.get (root ++ p) = some n ∧ n.isDir = n'.isDir ∧ (n'.isDir = false → n = n')

theorem LessAt.refl (root : Path) (fs : FS) : LessAt root fs fs := fun _ _ n h => ⟨n, h, rfl, fun _ => rfl⟩

theorem LessAt.trans {root : Path} {a b c : FS} (h1 : LessAt root a b) (h2 : LessAt root b c) : LessAt root a c := by
  intro p hp n hn
  obtain ⟨n1, e1, e2, e3⟩ := h2 p hp n hn
  obtain ⟨n2, f1, f2, f3⟩ := h1 p hp n1 e1
  refine ⟨n2, f1, f2.trans e2, fun hd => ?_⟩
  rw [f3 (by rw [e2]; exact hd), e3 hd]

theorem LessAt.of_eq {root : Path} {a b : FS} (h : ∀ p, b.get (root ++ p) = a.get (root ++ p)) : LessAt root a b :=
  fun p _ n hn => ⟨n, by rw [← h]; exact hn, rfl, fun _ => rfl⟩

theorem Shrink.lessAt {P : Path → Prop} {a b : FS} (h : Shrink P a b) (root : Path) : LessAt root a b := by
  intro p _ n hn
  rcases h.gone (root ++ p) with e | e
  · exact ⟨n, by rw [← e]; exact hn, rfl, fun _ => rfl⟩
  · rw [e] at hn; cases hn

theorem LessAt.noFileAbove {root : Path} {a b : FS} (h : LessAt root a b) {p : Path} (hp : PlainPath p)
    (ha : NoFileAbove a root p) : NoFileAbove b root p := by
  intro q n hq hne hn
  obtain ⟨n1, e1, e2, _⟩ := h q (hp.prefix hq) n hn
  rw [← e2]
  exact ha q n1 hq hne e1

/-- Both directories have only lost files. -/
def Less (env : Env) (fs fs' : FS) : Prop := LessAt env.loc fs fs' ∧ LessAt env.rem fs fs'

theorem Less.refl (env : Env) (fs : FS) : Less env fs fs := ⟨LessAt.refl _ _, LessAt.refl _ _⟩

theorem Less.trans {env : Env} {a b c : FS} (h1 : Less env a b) (h2 : Less env b c) : Less env a c :=
  ⟨h1.1.trans h2.1, h1.2.trans h2.2⟩

theorem Shrink.less {P : Path → Prop} {a b : FS} (h : Shrink P a b) (env : Env) : Less env a b :=
  ⟨h.lessAt _, h.lessAt _⟩

/-! ### Both directories fit together -/

/-- The same path does not name a directory in one of the directories and something else in the other, and a link
meets only a link, or is a link to the file that it meets. -/
structure Tidy (env : Env) (fs : FS) : Prop where
  kind : ∀ p, PlainPath p → ∀ a b, fs.get (env.loc ++ p) = some a → fs.get (env.rem ++ p) = some b → a.isDir = b.isDir
  rlink : ∀ p, PlainPath p → ∀ a b, fs.get (env.loc ++ p) = some a → fs.get (env.rem ++ p) = some b →
    b.isLink = true → a.isLink = true
  llink : ∀ p, PlainPath p → ∀ t m b, fs.get (env.loc ++ p) = some (.link t m) → fs.get (env.rem ++ p) = some b →
    FS.linkDest (env.loc ++ p) t = env.rem ++ p ∨ b.isLink = true

theorem isDir_of_isLink {n : Node} (h : n.isLink = true) : n.isDir = false := by
  cases n <;> simp_all [Node.isLink, Node.isDir]

theorem Tidy.less {env : Env} {a b : FS} (t : Tidy env a) (h : Less env a b) : Tidy env b := by
  refine ⟨?_, ?_, ?_⟩
  · intro p hp x y hx hy
    obtain ⟨x1, e1, e2, _⟩ := h.1 p hp x hx
    obtain ⟨y1, f1, f2, _⟩ := h.2 p hp y hy
    rw [← e2, ← f2]
    exact t.kind p hp _ _ e1 f1
  · intro p hp x y hx hy hl
    obtain ⟨x1, e1, e2, e3⟩ := h.1 p hp x hx
    obtain ⟨y1, f1, f2, f3⟩ := h.2 p hp y hy
    have hd := isDir_of_isLink hl
    have := f3 hd
    subst this
    have hx1 := t.rlink p hp _ _ e1 f1 hl
    have : x.isDir = false := by rw [← e2]; exact isDir_of_isLink hx1
    rw [← e3 this]
    exact hx1
  · intro p hp s m y hx hy
    obtain ⟨x1, e1, e2, e3⟩ := h.1 p hp _ hx
    obtain ⟨y1, f1, f2, f3⟩ := h.2 p hp y hy
    have := e3 rfl
    subst this
    rcases t.llink p hp s m y1 e1 f1 with h1 | h1
    · exact Or.inl h1
    · have : y.isDir = false := by rw [← f2]; exact isDir_of_isLink h1
      rw [← f3 this]
      exact Or.inr h1

/-- Copying from the local to the remote directory meets nothing bad. -/
theorem Tidy.clean_up {env : Env} {fs : FS} (t : Tidy env fs) {p : Path} (hp : PlainPath p) {n : Node}
    (hn : fs.get (env.loc ++ p) = some n) : Clean fs (env.loc ++ p) (env.rem ++ p) := by
  unfold Clean
  rcases Option.eq_none_or_eq_some (fs.get (env.rem ++ p)) with h | ⟨b, h⟩
  · rw [h]; trivial
  · rw [h]
    have hk := t.kind p hp _ _ hn h
    cases b with
    | file => trivial
    | dir => dsimp only; rw [isDir_iff_false hn, hk]; rfl
    | link s m =>
      dsimp only
      have hl := t.rlink p hp _ _ hn h rfl
      refine ⟨by rw [isDir_iff_false hn, hk]; rfl, Or.inr ?_⟩
      cases n with
      | link s' m' => exact ⟨s', m', hn⟩
      | _ => simp [Node.isLink] at hl

/-- Copying from the remote to the local directory meets nothing bad. -/
theorem Tidy.clean_down {env : Env} {fs : FS} (t : Tidy env fs) {p : Path} (hp : PlainPath p) {n : Node}
    (hn : fs.get (env.rem ++ p) = some n) : Clean fs (env.rem ++ p) (env.loc ++ p) := by
  unfold Clean
  rcases Option.eq_none_or_eq_some (fs.get (env.loc ++ p)) with h | ⟨b, h⟩
  · rw [h]; trivial
  · rw [h]
    have hk := t.kind p hp _ _ h hn
    cases b with
    | file => trivial
    | dir => dsimp only; rw [isDir_iff_false hn, ← hk]; rfl
    | link s m =>
      dsimp only
      refine ⟨by rw [isDir_iff_false hn, ← hk]; rfl, ?_⟩
      rcases t.llink p hp s m n h hn with h1 | h1
      · exact Or.inl h1
      · right
        cases n with
        | link s' m' => exact ⟨s', m', hn⟩
        | _ => simp [Node.isLink] at h1

/-! ### The databases fit the directories -/

/-- A row for `p` of kind `d` does not contradict what is in the directories. -/
structure Fits (env : Env) (fs : FS) (p : Path) (d : Bool) : Prop where
  user : UserPath p
  good : GoodPath p
  loc : ∀ n, fs.get (env.loc ++ p) = some n → n.isDir = d
  rem : ∀ n, fs.get (env.rem ++ p) = some n → n.isDir = d
  aboveL : NoFileAbove fs env.loc p
  aboveR : NoFileAbove fs env.rem p

theorem Fits.less {env : Env} {a b : FS} (h : Less env a b) {p : Path} {d : Bool} (f : Fits env a p d) :
    Fits env b p d := by
  refine ⟨f.user, f.good, ?_, ?_, h.1.noFileAbove f.user.plain f.aboveL, h.2.noFileAbove f.user.plain f.aboveR⟩
  · intro n hn
    obtain ⟨n1, e1, e2, _⟩ := h.1 p f.user.plain n hn
    rw [← e2]; exact f.loc n1 e1
  · intro n hn
    obtain ⟨n1, e1, e2, _⟩ := h.2 p f.user.plain n hn
    rw [← e2]; exact f.rem n1 e1

/-- No row contradicts what is in the directories. -/
def Fit {δ : Type} (env : Env) (fs : FS) (a : ADB δ) : Prop := ∀ e ∈ a, Fits env fs e.path e.directory

variable {δ : Type}

theorem Fit.less {env : Env} {fs fs' : FS} (h : Less env fs fs') {a : ADB δ} (f : Fit env fs a) : Fit env fs' a :=
  fun e he => (f e he).less h

theorem Fit.of_pathDir {δ' : Type} {env : Env} {fs : FS} {a : ADB δ} {b : ADB δ'}
    (h : b.map (fun e => (e.path, e.directory)) = a.map (fun e => (e.path, e.directory)))
    (f : Fit env fs a) : Fit env fs b := by
  intro e he
  have h1 : (e.path, e.directory) ∈ b.map (fun e => (e.path, e.directory)) := List.mem_map.2 ⟨e, he, rfl⟩
  rw [h] at h1
  obtain ⟨e', h2, h3⟩ := List.mem_map.1 h1
  have := f e' h2
  rw [Prod.mk.injEq] at h3
  rw [← h3.1, ← h3.2]
  exact this

theorem Fit.sub {env : Env} {fs : FS} {a b : ADB δ} (h : ∀ e ∈ b, e ∈ a) (f : Fit env fs a) : Fit env fs b :=
  fun e he => f e (h e he)

theorem Fit.path {env : Env} {fs : FS} {a : ADB δ} (f : Fit env fs a) {p : Path} (hp : p ∈ ADB.paths a) :
    ∃ d, Fits env fs p d := by
  obtain ⟨e, he, rfl⟩ := List.mem_map.1 hp
  exact ⟨_, f e he⟩

open ADB in
/-- Adding rows. -/
theorem Fit.addCore {env : Env} {fs : FS} {a : ADB δ} {batch : List (Path × Bool)} {data : δ} (f : Fit env fs a)
    (hb : ∀ e ∈ batch, e.1 ∈ paths a ∨ Fits env fs e.1 e.2) : Fit env fs (addCore a batch data) := by
  obtain ⟨news, h1, h2⟩ := addCore_eq a batch data
  rw [h1]
  intro e he
  unfold mark at he
  obtain ⟨e', he', rfl⟩ := List.mem_map.1 he
  have h3 : Fits env fs e'.path e'.directory := by
    rcases List.mem_append.1 he' with h | h
    · exact f _ h
    · obtain ⟨h4, h5⟩ := h2.mem _ h
      rcases hb _ h4 with h6 | h6
      · exact absurd h6 h5.1
      · exact h6
  split
  · rename_i hm
    obtain ⟨h4, q, hq, h5⟩ := DB.mem_parentsOf.1 hm
    obtain ⟨x, hx, rfl⟩ := List.mem_map.1 hq
    have hq0 : x.1 ≠ [] := by intro h0; rw [h0] at h5; exact h4 h5.symm
    obtain ⟨d, hd⟩ : ∃ d, Fits env fs x.1 d := by
      rcases hb x (mem_sortDepth.1 hx) with h6 | h6
      · exact f.path h6
      · exact ⟨_, h6⟩
    have hpre : e'.path <+: x.1 := by rw [← h5]; exact List.dropLast_prefix _
    have hne : e'.path ≠ x.1 := by rw [← h5]; exact (FS.dropLast_proper hq0).2
    exact ⟨h3.user, h3.good, fun n hn => hd.aboveL _ n hpre hne hn, fun n hn => hd.aboveR _ n hpre hne hn,
      h3.aboveL, h3.aboveR⟩
  · exact h3

theorem Fit.addLocal {env : Env} {fs : FS} {a : ALocal} {batch : List (Path × Bool)} {x : Rat} {l : Bool}
    (f : Fit env fs a) (hb : ∀ e ∈ batch, e.1 ∈ ADB.paths a ∨ Fits env fs e.1 e.2) :
    Fit env fs (ALocal.addPaths a batch x l) :=
  Fit.of_pathDir (pathDir_refresh _ _) (f.addCore hb)

theorem Fit.addRemote {env : Env} {fs : FS} {a : ARemote} {batch : List (Path × Bool)} {t : Int}
    (f : Fit env fs a) (hb : ∀ e ∈ batch, e.1 ∈ ADB.paths a ∨ Fits env fs e.1 e.2) :
    Fit env fs (ARemote.addPaths a batch t) := f.addCore hb

theorem Fit.addInflated {env : Env} {fs : FS} {a b : ALocal} {batch : List (Path × Bool)}
    (f : Fit env fs a) (hb : ∀ e ∈ batch, e.1 ∈ ADB.paths a ∨ Fits env fs e.1 e.2)
    (h : ALocal.addInflated a batch = some b) : Fit env fs b := by
  unfold ALocal.addInflated at h
  split at h
  · cases h; exact f.addLocal hb
  · split at h
    · cases h; exact f.addLocal hb
    · cases h

theorem Fit.rmRows {env : Env} {fs : FS} {w : World} (ps : List Path) (f : Fit env fs w.db) (g : Fit env fs w.rdb) :
    Fit env fs (w.rmRows ps).db ∧ Fit env fs (w.rmRows ps).rdb := by
  refine ⟨?_, ?_⟩
  · exact Fit.of_pathDir (pathDir_refresh _ _) (f.sub (fun e he => (List.mem_filter.1 he).1))
  · exact g.sub (fun e he => (List.mem_filter.1 he).1)

end Verif
