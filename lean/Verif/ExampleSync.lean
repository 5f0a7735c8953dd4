import Verif.SyncUpdate
import Verif.ExampleTools
/-
Checks of the hypotheses about the state in which a sync starts, in concrete cases.
-/
namespace Verif

/-- A test that implies `Tidy`. -/
def tidyB (env : Env) (fs : FS) : Bool :=
  fs.all fun e => !(env.loc.isPrefixOf e.1) ||
    match fs.get (env.rem ++ e.1.drop env.loc.length) with
    | none => true
    | some b => (e.2.isDir == b.isDir) && (!b.isLink || e.2.isLink) &&
      match e.2 with
      | .link t _ => decide (FS.linkDest e.1 t = env.rem ++ e.1.drop env.loc.length) || b.isLink
      | _ => true

theorem tidy_of_tidyB {env : Env} {fs : FS} (h : tidyB env fs = true) (hl : env.loc ≠ []) : Tidy env fs := by
  have key : ∀ p a b, fs.get (env.loc ++ p) = some a → fs.get (env.rem ++ p) = some b →
      ((a.isDir == b.isDir) && (!b.isLink || a.isLink) &&
        match a with
        | .link t _ => decide (FS.linkDest (env.loc ++ p) t = env.rem ++ p) || b.isLink
        | _ => true) = true := by
    intro p a b ha hb
    have := List.all_eq_true.1 h _ (FS.mem_of_get (by simp [hl]) ha)
    simp only [List.drop_left, hb, Bool.or_eq_true, Bool.not_eq_true'] at this
    rcases this with h1 | h1
    · have : env.loc.isPrefixOf (env.loc ++ p) = true := List.isPrefixOf_iff_prefix.2 (List.prefix_append _ _)
      rw [this] at h1; cases h1
    · exact h1
  refine ⟨?_, ?_, ?_⟩
  · intro p _ a b ha hb
    have := key p a b ha hb
    simp only [Bool.and_eq_true, beq_iff_eq] at this
    exact this.1.1
  · intro p _ a b ha hb hlk
    have := key p a b ha hb
    simp only [Bool.and_eq_true, Bool.or_eq_true, Bool.not_eq_true', hlk] at this
    rcases this.1.2 with h1 | h1
    · cases h1
    · exact h1
  · intro p _ t m b ha hb
    have := key p _ b ha hb
    simp only [Bool.and_eq_true, Bool.or_eq_true, decide_eq_true_eq] at this
    exact this.2

/-- A test that implies `Fits`. -/
def fitsB (env : Env) (fs : FS) (p : Path) (d : Bool) : Bool :=
  decide (UserPath p) && decide (GoodPath p) && (fs.get (env.loc ++ p)).all (fun n => n.isDir == d) &&
    (fs.get (env.rem ++ p)).all (fun n => n.isDir == d) &&
    (List.range p.length).all (fun k => (fs.get (env.loc ++ p.take k)).all Node.isDir &&
      (fs.get (env.rem ++ p.take k)).all Node.isDir)

theorem fits_of_fitsB {env : Env} {fs : FS} {p : Path} {d : Bool} (h : fitsB env fs p d = true) : Fits env fs p d := by
  simp only [fitsB, Bool.and_eq_true, decide_eq_true_eq, List.all_eq_true, List.mem_range] at h
  obtain ⟨⟨⟨⟨h1, h2⟩, h3⟩, h4⟩, h5⟩ := h
  have hab : ∀ q, q <+: p → q ≠ p → q = p.take q.length ∧ q.length < p.length := by
    rintro q ⟨t, rfl⟩ hne
    refine ⟨by simp, ?_⟩
    cases t with
    | nil => simp at hne
    | cons x t => simp
  refine ⟨h1, h2, ?_, ?_, ?_, ?_⟩
  · intro n hn; rw [hn] at h3; simpa using h3
  · intro n hn; rw [hn] at h4; simpa using h4
  · intro q n hq hne hn
    obtain ⟨e1, e2⟩ := hab q hq hne
    have := (h5 _ e2).1
    rw [← e1, hn] at this
    simpa using this
  · intro q n hq hne hn
    obtain ⟨e1, e2⟩ := hab q hq hne
    have := (h5 _ e2).2
    rw [← e1, hn] at this
    simpa using this

/-- A test that implies `Fit`. -/
def fitB {δ : Type} (env : Env) (fs : FS) (a : ADB δ) : Bool := a.all fun e => fitsB env fs e.path e.directory

theorem fit_of_fitB {δ : Type} {env : Env} {fs : FS} {a : ADB δ} (h : fitB env fs a = true) : Fit env fs a :=
  fun e he => fits_of_fitsB (List.all_eq_true.1 h e he)

/-- All names are too short for conflict names. -/
def shortB (ps : List Path) : Bool := ps.all fun p => p.all fun c => decide (c.length < 10)

theorem not_short {ts : Str} (hts : GoodStamp ts) {p : Path} (hu : UserPath p) (hg : GoodPath p) {ps : List Path}
    (h : shortB ps = true) {q root : Path} (hq : q ∈ ps) : ¬ root ++ conflictPath ts p <+: q := by
  obtain ⟨c', h1, _, h3, _⟩ := conflictPath_eq hts hg hu.1
  intro hpre
  have hc : c' ∈ q := hpre.subset (by rw [h1]; simp)
  have := List.all_eq_true.1 (List.all_eq_true.1 h q hq) _ hc
  simp only [decide_eq_true_eq] at this
  omega

/-- A test for the rest of `SyncReady`. -/
def readyB (env : Env) (w : World) : Bool :=
  decide (w.os.fs.map Prod.fst).Nodup && (w.os.fs.all fun e => decide (e.1 ≠ []) && decide (GoodPath e.1) &&
    w.os.fs.isDir e.1.dropLast) &&
  decide (GoodName env.id) && decide (GoodPath env.rem) && w.os.fs.isDir env.loc &&
  (match w.os.fs.get (env.exclDir ++ [env.id]) with
    | none => true
    | some (.file ..) => true
    | _ => false) &&
  (match w.os.fs.get env.excl with
    | some (.file ..) => true
    | _ => false) &&
  decide (env.excl ≠ env.exclDir ++ [env.id]) && decide (w.os.fs.get (env.loc ++ [Env.utilName]) = none) &&
  tidyB env w.os.fs && fitB env w.os.fs w.db && fitB env w.os.fs w.rdb && decide (ADB.paths w.db).Nodup &&
  decide (ADB.paths w.rdb).Nodup && shortB (w.os.fs.map Prod.fst) && shortB (ADB.paths w.db) &&
  shortB (ADB.paths w.rdb) && decide (w.lmemo = []) && decide (w.rmemo = [])

theorem syncReady_of_readyB {env : Env} {w : World} (h : readyB env w = true) (ho : ∀ l, (env.order l).Perm l)
    (ha : Apart env.loc env.rem) (hs : ∀ k, GoodStamp (env.stamp (w.os.clk k))) (hm : w.matches_ = none) :
    SyncReady env w := by
  simp only [readyB, Bool.and_eq_true, decide_eq_true_eq, List.all_eq_true] at h
  obtain ⟨⟨⟨⟨⟨⟨⟨⟨⟨⟨⟨⟨⟨⟨⟨⟨⟨⟨h1, h2⟩, h3⟩, h4⟩, h5⟩, h6⟩, h7⟩, h8⟩, h9⟩, h10⟩, h11⟩, h12⟩, h13⟩, h14⟩, h15⟩, h16⟩, h17⟩,
    h18⟩, h19⟩ := h
  have hl := ha.ne_nil
  have hr := ha.symm.ne_nil
  have nofile : ∀ root : Path, root ≠ [] → ∀ k p, UserPath p → GoodPath p →
      w.os.fs.get (root ++ conflictPath (env.stamp (w.os.clk k)) p) = none := by
    intro root hroot k p hu hg
    rcases Option.eq_none_or_eq_some (w.os.fs.get (root ++ conflictPath (env.stamp (w.os.clk k)) p)) with h | ⟨n, h⟩
    · exact h
    · exact absurd (List.prefix_refl _) (not_short (hs k) hu hg h15
        (List.mem_map.2 ⟨_, FS.mem_of_get (by simp [hroot]) h, rfl⟩))
  refine ⟨ho, ha, ⟨h1, fun e he => (h2 e he).1.1, fun e he => (h2 e he).1.2, fun e he => (h2 e he).2⟩, h3, h4, h5, ?_, ?_,
    h8, h9, tidy_of_tidyB h10 hl, fit_of_fitB h11, fit_of_fitB h12, h13, h14, fun k _ => hs k, ?_, ?_, h18, h19, hm⟩
  · intro n hn
    rw [hn] at h6
    cases n with
    | file c m b => exact ⟨c, m, b, rfl⟩
    | _ => cases h6
  · rcases Option.eq_none_or_eq_some (w.os.fs.get env.excl) with h | ⟨n, h⟩
    · rw [h] at h7; cases h7
    · rw [h] at h7
      cases n with
      | file c m b => exact ⟨c, m, b, h⟩
      | _ => cases h7
  · intro k p _ hu hg
    exact ⟨nofile _ hl k p hu hg, nofile _ hr k p hu hg⟩
  · rintro k p _ hu hg q (hq | hq)
    · exact not_short (root := []) (hs k) hu hg h16 hq
    · exact not_short (root := []) (hs k) hu hg h17 hq

end Verif
