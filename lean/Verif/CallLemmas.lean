import Verif.WP
import Verif.FSLemmas
/-
What the library functions do to the file system.
-/
namespace Verif
open Prog OSM

/-- Only directories that satisfy `P` have been made; everything else is as before. -/
structure Grow (P : Path → Prop) (fs fs' : FS) : Prop where
  keeps : ∀ q n, fs.get q = some n → fs'.get q = some n
  new : ∀ q, fs.get q = none → fs'.get q = none ∨ (P q ∧ fs'.isDir q = true)
  wf : (∀ q, P q → GoodPath q) → fs.WF → fs'.WF

theorem Grow.refl (P : Path → Prop) (fs : FS) : Grow P fs fs :=
  ⟨fun _ _ h => h, fun _ h => Or.inl h, fun _ h => h⟩

theorem Grow.trans {P : Path → Prop} {a b c : FS} (h1 : Grow P a b) (h2 : Grow P b c) : Grow P a c := by
  refine ⟨fun q n h => h2.keeps q n (h1.keeps q n h), ?_, fun hg h => h2.wf hg (h1.wf hg h)⟩
  intro q hq
  rcases h1.new q hq with h | ⟨hP, hd⟩
  · exact h2.new q h
  · right
    obtain ⟨m, b, hg⟩ := FS.isDir_iff.1 hd
    exact ⟨hP, FS.isDir_iff.2 ⟨m, b, h2.keeps _ _ hg⟩⟩

theorem Grow.mono {P P' : Path → Prop} {a b : FS} (h : Grow P a b) (hP : ∀ q, P q → P' q) :
    Grow P' a b :=
  ⟨h.keeps, fun q hq => (h.new q hq).imp id (fun ⟨x, y⟩ => ⟨hP q x, y⟩),
    fun hg => h.wf (fun q hq => hg q (hP q hq))⟩

theorem Grow.get_eq {P : Path → Prop} {a b : FS} (h : Grow P a b) {q : Path} (hq : ¬ P q) :
    b.get q = a.get q := by
  cases hg : a.get q with
  | none =>
    rcases h.new q hg with h | ⟨hP, _⟩
    · exact h
    · exact absurd hP hq
  | some n => exact h.keeps _ _ hg

namespace Call

theorem mkdir_ok {fs fs' : FS} {p : Path} {now : Int} (h : fs.mkdir p now = .ok fs') :
    p ≠ [] ∧ fs.get p = none ∧ fs.pathErr p = none ∧ fs' = fs.set p (.dir now 8) := by
  obtain ⟨h1, h2, h3⟩ := FS.create_ok h
  refine ⟨?_, h2, h1, h3⟩
  rintro rfl
  simp at h2

theorem grow_mkdir {fs fs' : FS} {p : Path} {now : Int} (h : fs.mkdir p now = .ok fs') :
    Grow (· = p) fs fs' := by
  obtain ⟨hp, h1, h2, rfl⟩ := mkdir_ok h
  refine ⟨?_, ?_, ?_⟩
  · intro q n hq
    have : q ≠ p := by rintro rfl; rw [h1] at hq; cases hq
    rw [FS.get_set_ne fs this]; exact hq
  · intro q hq
    by_cases hqp : q = p
    · subst hqp
      exact Or.inr ⟨rfl, FS.isDir_iff.2 ⟨_, _, FS.get_set_self fs hp _⟩⟩
    · left; rw [FS.get_set_ne fs hqp]; exact hq
  · intro hg w
    exact w.create (hg p rfl) h

/-- Directories made so far, for a bound on the time of each. -/
theorem wp_mkdirOk (p : Path) (s : OS) :
    wp (mkdirOk p) (fun _ s' => Grow (· = p) s.fs s'.fs ∧ s'.fs.pathIsDir p = true)
      (fun _ s' => Grow (· = p) s.fs s'.fs) s := by
  unfold mkdirOk
  rw [wp_tryCatch]
  apply wp_op
  · simpa using Grow.refl _ _
  · intro fs' h
    refine ⟨grow_mkdir h, ?_⟩
    obtain ⟨hp, h1, h2, rfl⟩ := mkdir_ok h
    show ((s.fs.set p _)).pathIsDir p = true
    have hpe : (s.fs.set p (.dir (s.clk s.tick) 8)).pathErr p = none := by
      rw [← h2]
      exact FS.pathErr_congr (fun q _ hne => FS.get_set_ne _ hne _)
    unfold FS.pathIsDir
    rw [FS.stat_nonlink hpe (FS.get_set_self _ hp _) rfl]
    rfl
  · intro e he
    split
    · exact Grow.refl _ _
    · show wp (unlessDir p e) _ _ _
      unfold unlessDir
      rw [wp_bind, wp_ask]
      split
      · rename_i hb
        rw [wp_pure]
        exact ⟨Grow.refl _ _, hb⟩
      · rw [wp_throw]
        exact Grow.refl _ _

theorem wp_makedirsRev (rev : Path) (s : OS) :
    wp (makedirsRev rev)
      (fun _ s' => Grow (fun q => q ≠ [] ∧ q <+: rev.reverse) s.fs s'.fs ∧ s'.fs.pathIsDir rev.reverse = true)
      (fun _ s' => Grow (fun q => q ≠ [] ∧ q <+: rev.reverse) s.fs s'.fs) s := by
  have hne : ∀ {p : Path} {fs fs' : FS}, Grow (· = p) fs fs' → Grow (fun q => q ≠ [] ∧ q <+: p) fs fs' := by
    intro p fs fs' h
    refine ⟨h.keeps, ?_, ?_⟩
    · intro q hq
      refine (h.new q hq).imp id ?_
      rintro ⟨rfl, hd⟩
      refine ⟨⟨?_, List.prefix_refl _⟩, hd⟩
      rintro rfl
      simp at hq
    · intro hg
      by_cases hp : p = []
      · subst hp
        exact h.wf (fun q hq => by subst hq; intro c hc; cases hc)
      · exact h.wf (fun q hq => by subst hq; exact hg q ⟨hp, List.prefix_refl _⟩)
  induction rev generalizing s with
  | nil =>
    rw [makedirsRev]
    refine wp_mono (wp_mkdirOk [] s) ?_ ?_
    · rintro _ s' ⟨h1, h2⟩
      exact ⟨hne h1, h2⟩
    · rintro _ s' h1
      exact hne h1
  | cons c rev ih =>
    have hsub : ∀ q : Path, q ≠ [] ∧ q <+: rev.reverse → q ≠ [] ∧ q <+: (c :: rev).reverse :=
      fun q hq => ⟨hq.1, hq.2.trans (by simp)⟩
    rw [makedirsRev, wp_bind, wp_ask]
    split
    · refine wp_mono (wp_mkdirOk _ s) ?_ ?_
      · rintro _ s' ⟨h1, h2⟩
        exact ⟨hne h1, h2⟩
      · rintro _ s' h1
        exact hne h1
    · rw [wp_bind, wp_tryCatch]
      have hfin : ∀ s1 : OS, Grow (fun q => q ≠ [] ∧ q <+: rev.reverse) s.fs s1.fs →
          wp (mkdirOk (c :: rev).reverse)
            (fun _ s' => Grow (fun q => q ≠ [] ∧ q <+: (c :: rev).reverse) s.fs s'.fs ∧
              s'.fs.pathIsDir (c :: rev).reverse = true)
            (fun _ s' => Grow (fun q => q ≠ [] ∧ q <+: (c :: rev).reverse) s.fs s'.fs) s1 := by
        intro s1 h1
        refine wp_mono (wp_mkdirOk _ s1) ?_ ?_
        · rintro _ s' ⟨h2, h3⟩
          exact ⟨(h1.mono hsub).trans (hne h2), h3⟩
        · rintro _ s' h2
          exact (h1.mono hsub).trans (hne h2)
      refine wp_mono (ih s) ?_ ?_
      · rintro _ s1 ⟨h1, _⟩
        exact hfin s1 h1
      · intro e s1 h1
        split
        · exact h1.mono hsub
        · by_cases he : e = .exists_
          · simp only [he, if_true]
            rw [wp_pure]
            exact hfin s1 h1
          · simp only [he, if_false]
            exact h1.mono hsub

/-- `os.makedirs(p, exist_ok=True)` makes only directories on the way to `p`. -/
theorem wp_makedirs (p : Path) (s : OS) :
    wp (makedirs p)
      (fun _ s' => Grow (fun q => q ≠ [] ∧ q <+: p) s.fs s'.fs ∧ s'.fs.pathIsDir p = true)
      (fun _ s' => Grow (fun q => q ≠ [] ∧ q <+: p) s.fs s'.fs) s := by
  have := wp_makedirsRev p.reverse s
  rwa [List.reverse_reverse] at this

theorem wp_mkdirOk_dir {p : Path} {s : OS} (w : s.fs.WF) {m : Int} {b : Nat} (hg : s.fs.get p = some (.dir m b)) :
    wp (mkdirOk p) (fun _ s' => s'.fs = s.fs) (fun e s' => s'.fs = s.fs ∧ e = .killed) s := by
  unfold mkdirOk
  rw [wp_tryCatch]
  apply wp_op
  · exact ⟨rfl, rfl⟩
  · intro fs' h
    rw [(mkdir_ok h).2.1] at hg
    cases hg
  · intro e he
    split
    · exact ⟨rfl, ‹_›⟩
    · show wp (unlessDir p e) _ _ _
      unfold unlessDir
      rw [wp_bind, wp_ask]
      have : (OS.next s s.fs).fs.pathIsDir p = true := by
        show s.fs.pathIsDir p = true
        unfold FS.pathIsDir
        rw [FS.stat_nonlink (w.pathErr hg) hg rfl]
        rfl
      rw [if_pos this, wp_pure]
      rfl

/-- `os.makedirs(p, exist_ok=True)` of a directory changes nothing. -/
theorem wp_makedirs_dir {p : Path} {s : OS} (w : s.fs.WF) {m : Int} {b : Nat} (hg : s.fs.get p = some (.dir m b)) :
    wp (makedirs p) (fun _ s' => s'.fs = s.fs) (fun e s' => s'.fs = s.fs ∧ e = .killed) s := by
  unfold makedirs
  cases hr : p.reverse with
  | nil =>
    have hp : p = [] := by simpa using hr
    subst hp
    rw [makedirsRev]
    exact wp_mkdirOk_dir w hg
  | cons c rev =>
    have hp : (c :: rev).reverse = p := by rw [← hr, List.reverse_reverse]
    have hp0 : p ≠ [] := by rintro rfl; simp at hr
    have hd : rev.reverse = p.dropLast := by rw [← hp]; simp
    obtain ⟨m', b', hg'⟩ := FS.isDir_iff.1 (w.parent hg hp0)
    rw [makedirsRev, wp_bind, wp_ask, hd, hp]
    have : s.fs.pathExists p.dropLast = true := by
      unfold FS.pathExists
      rw [FS.stat_nonlink (w.pathErr hg') hg' rfl]
    rw [if_pos this]
    exact wp_mkdirOk_dir w hg

end Call
end Verif
