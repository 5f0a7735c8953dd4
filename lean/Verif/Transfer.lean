import Verif.CopyLemmas
import Verif.SymlinkTree
/-
What `transfer_tree` does to the file system.
-/
namespace Verif
open Prog OSM Call FSTools

/-- Neither directory is in the other. -/
def Apart (a b : Path) : Prop := ¬ a <+: b ∧ ¬ b <+: a

theorem Apart.symm {a b : Path} (h : Apart a b) : Apart b a := ⟨h.2, h.1⟩

theorem Apart.ne {a b : Path} (h : Apart a b) (p q : Path) : a ++ p ≠ b ++ q := by
  intro he
  rcases List.append_eq_append_iff.1 he with ⟨t, ht, _⟩ | ⟨t, ht, _⟩
  · exact h.1 ⟨t, ht.symm⟩
  · exact h.2 ⟨t, ht.symm⟩

theorem Apart.ne_nil {a b : Path} (h : Apart a b) : a ≠ [] := by
  rintro rfl; exact h.1 (List.nil_prefix)

/-- Nothing below `a` is a parent of something below `b`. -/
theorem Apart.not_prefix {a b : Path} (h : Apart a b) (p q : Path) : ¬ a ++ p <+: b ++ q := by
  rintro ⟨t, ht⟩
  rw [List.append_assoc] at ht
  exact h.ne _ _ ht

/-- What holds while the paths `L` are transferred, also if the program ends. -/
structure Moving (source dest : Path) (rm : Bool) (f0 : FS) (L : List Path) (fs : FS) : Prop where
  wf : fs.WF
  keeps : ∀ q, ¬ source <+: q → (∀ p ∈ L, q ≠ dest ++ p) → ∀ n, f0.get q = some n → fs.get q = some n
  new : ∀ q, ¬ source <+: q → (∀ p ∈ L, q ≠ dest ++ p) → f0.get q = none →
    fs.get q = none ∨ (fs.isDir q = true ∧ ∃ p ∈ L, q <+: dest ++ p)
  src : ∀ p, fs.get (source ++ p) = f0.get (source ++ p) ∨
    (rm = true ∧ p ∈ L ∧ fs.get (source ++ p) = none ∧
      ∀ n, f0.get (source ++ p) = some n → Copied n fs (dest ++ p))
  ddir : ∀ q, ¬ source <+: q → f0.isDir q = true → fs.get q = f0.get q
  dst : ∀ p ∈ L, fs.get (source ++ p) = f0.get (source ++ p) → Clean fs (source ++ p) (dest ++ p)

/-- What holds after the paths `done` have been transferred. -/
structure Moved (source dest : Path) (rm : Bool) (f0 : FS) (done : List Path) (fs : FS) : Prop
    extends Moving source dest rm f0 done fs where
  copied : ∀ p ∈ done, ∀ n, f0.get (source ++ p) = some n → Copied n fs (dest ++ p)
  gone : rm = true → ∀ p ∈ done, fs.get (source ++ p) = none

theorem Copied.congr {n : Node} {fs fs' : FS} {q : Path} (h : fs'.get q = fs.get q) (hc : Copied n fs q) :
    Copied n fs' q := by
  unfold Copied at *
  cases n with
  | dir m b => dsimp only at *; rw [FS.isDir_congr h]; exact hc
  | _ => dsimp only at *; rw [h]; exact hc

theorem Copied.isSome {n : Node} {fs : FS} {q : Path} (hc : Copied n fs q) : ∃ n', fs.get q = some n' := by
  unfold Copied at hc
  cases n with
  | dir m b => obtain ⟨m, b, h⟩ := FS.isDir_iff.1 hc; exact ⟨_, h⟩
  | _ => exact ⟨_, hc⟩

theorem Copied.keep {n : Node} {fs fs' : FS} {q : Path}
    (h : ∀ n, fs.get q = some n → fs'.get q = some n) (hc : Copied n fs q) : Copied n fs' q := by
  obtain ⟨n', hn'⟩ := hc.isSome
  exact hc.congr ((h n' hn').trans hn'.symm)

theorem Copied.clean {n : Node} {fs : FS} {src dst : Path} (hc : Copied n fs dst) (hs : fs.get src = some n) :
    Clean fs src dst := by
  unfold Copied at hc
  unfold Clean
  cases n with
  | file c m b => rw [hc]; trivial
  | dir m b =>
    obtain ⟨m', b', h⟩ := FS.isDir_iff.1 hc
    rw [h]
    exact FS.isDir_iff.2 ⟨_, _, hs⟩
  | link t m =>
    rw [hc]
    exact ⟨by unfold FS.isDir; rw [hs]; rfl, Or.inr ⟨_, _, hs⟩⟩

section
variable {source dest : Path} {rm : Bool} {f0 : FS} {L : List Path}

/-- Making parent directories in the destination. -/
theorem Moving.grow {fs fs' : FS} {p : Path} (ha : Apart source dest) (w0 : f0.WF)
    (h : Moving source dest rm f0 L fs) (hp : p ∈ L) (hn : ∃ n, f0.get (source ++ p) = some n)
    (hp0 : p ≠ []) (hg : GoodPath (dest ++ p))
    (hgr : Grow (fun q => q ≠ [] ∧ q <+: (dest ++ p).dropLast) fs fs') : Moving source dest rm f0 L fs' := by
  have hup : ∀ q, q <+: (dest ++ p).dropLast → q <+: dest ++ p := fun q h =>
    h.trans (List.dropLast_prefix _)
  have hsrc : ∀ q, fs'.get (source ++ q) = fs.get (source ++ q) := by
    intro q
    apply hgr.get_eq
    rintro ⟨_, h⟩
    exact ha.not_prefix q p (hup _ h)
  refine ⟨?_, ?_, ?_, ?_, ?_, ?_⟩
  · refine hgr.wf ?_ h.wf
    rintro q ⟨_, hq⟩
    obtain ⟨t, ht⟩ := hup q hq
    rw [← ht] at hg
    exact (goodPath_append.1 hg).1
  · intro q hq hx n hn
    exact hgr.keeps _ _ (h.keeps q hq hx n hn)
  · intro q hq hx hn
    rcases h.new q hq hx hn with h1 | ⟨h1, h2⟩
    · rcases hgr.new q h1 with h3 | ⟨⟨_, h3⟩, h4⟩
      · exact Or.inl h3
      · exact Or.inr ⟨h4, p, hp, hup q h3⟩
    · obtain ⟨m, b, h3⟩ := FS.isDir_iff.1 h1
      exact Or.inr ⟨FS.isDir_iff.2 ⟨m, b, hgr.keeps _ _ h3⟩, h2⟩
  · intro q
    rw [hsrc q]
    rcases h.src q with h1 | ⟨h1, h2, h3, h4⟩
    · exact Or.inl h1
    · exact Or.inr ⟨h1, h2, h3, fun n hn => (h4 n hn).keep (hgr.keeps _)⟩
  · intro q hq hd
    have h1 := h.ddir q hq hd
    obtain ⟨m, b, h2⟩ := FS.isDir_iff.1 hd
    rw [h2] at h1 ⊢
    exact hgr.keeps _ _ h1
  · intro q hq hsame
    rw [hsrc q] at hsame
    have hc := h.dst q hq hsame
    unfold Clean at hc ⊢
    rw [FS.isDir_congr (hsrc q), hsrc q]
    rcases Option.eq_none_or_eq_some (fs.get (dest ++ q)) with h1 | ⟨x, h1⟩
    · rcases hgr.new _ h1 with h2 | ⟨⟨_, h2⟩, h3⟩
      · rw [h2]; trivial
      · obtain ⟨m, b, h4⟩ := FS.isDir_iff.1 h3
        rw [h4]
        dsimp only
        rw [FS.isDir_congr hsame]
        obtain ⟨n, hn⟩ := hn
        refine w0.isDir_prefix hn _ ?_ ?_
        · have := hup _ h2
          rw [List.prefix_append_right_inj] at this ⊢
          exact this
        · intro he
          have := h2.length_le
          have h5 := List.length_pos_iff.2 hp0
          rw [List.append_cancel_left he] at this
          simp at this
          omega
    · rw [hgr.keeps _ _ h1]
      rw [h1] at hc
      exact hc

/-- Changing a destination path that has not been treated. -/
theorem Moving.at_ {fs fs' : FS} {p : Path} (ha : Apart source dest) (h : Moving source dest rm f0 L fs)
    (hp : p ∈ L) (hsame : fs.get (source ++ p) = f0.get (source ++ p))
    (hsome : ∃ n, fs.get (source ++ p) = some n) (hw : fs'.WF) (ho : OnlyAt (dest ++ p) fs fs')
    (hdir : fs.isDir (dest ++ p) = true → fs'.get (dest ++ p) = fs.get (dest ++ p))
    (hcl : Clean fs' (source ++ p) (dest ++ p)) :
    Moving source dest rm f0 L fs' := by
  refine ⟨hw, ?_, ?_, ?_, ?_, ?_⟩
  · intro q hq hx n hn
    rw [ho q (hx p hp)]; exact h.keeps q hq hx n hn
  · intro q hq hx hn
    rw [ho q (hx p hp), FS.isDir_congr (ho q (hx p hp))]; exact h.new q hq hx hn
  · intro q
    rw [ho _ (ha.ne q p)]
    rcases h.src q with h1 | ⟨h1, h2, h3, h4⟩
    · exact Or.inl h1
    · right
      have hqp : q ≠ p := by
        rintro rfl
        obtain ⟨n, hn⟩ := hsome
        rw [h3] at hn; cases hn
      refine ⟨h1, h2, h3, fun n hn => (h4 n hn).congr (ho _ ?_)⟩
      exact fun he => hqp (List.append_cancel_left he)
  · intro q hq hd
    have h1 := h.ddir q hq hd
    by_cases hqp : q = dest ++ p
    · subst hqp
      rw [hdir (by rw [FS.isDir_congr h1]; exact hd), h1]
    · rw [ho q hqp, h1]
  · intro q hq hq'
    by_cases hqp : q = p
    · subst hqp; exact hcl
    · rw [ho _ (ha.ne q p)] at hq'
      have hc := h.dst q hq hq'
      unfold Clean at hc ⊢
      rw [ho _ (fun he => hqp (List.append_cancel_left he)), FS.isDir_congr (ho _ (ha.ne q p)), ho _ (ha.ne q p)]
      exact hc

/-- Removing a source path after it has been copied. -/
theorem Moving.rmSrc {fs fs' : FS} {p : Path} (ha : Apart source dest) (h : Moving source dest true f0 L fs)
    (hp : p ∈ L) (hsome : ∃ n, f0.get (source ++ p) = some n)
    (hc : ∀ n, f0.get (source ++ p) = some n → Copied n fs (dest ++ p))
    (hw : fs'.WF) (ho : OnlyAt (source ++ p) fs fs') (hg : fs'.get (source ++ p) = none) :
    Moving source dest true f0 L fs' := by
  have hd : ∀ q, ¬ source <+: q → fs'.get q = fs.get q := by
    intro q hq
    apply ho
    rintro rfl
    exact hq (List.prefix_append _ _)
  have hdd : ∀ q, fs'.get (dest ++ q) = fs.get (dest ++ q) := fun q => ho _ (ha.symm.ne q p)
  refine ⟨hw, ?_, ?_, ?_, ?_, ?_⟩
  · intro q hq hx n hn; rw [hd q hq]; exact h.keeps q hq hx n hn
  · intro q hq hx hn; rw [hd q hq, FS.isDir_congr (hd q hq)]; exact h.new q hq hx hn
  · intro q
    by_cases hqp : q = p
    · subst hqp
      exact Or.inr ⟨rfl, hp, hg, fun n hn => (hc n hn).congr (hdd q)⟩
    · rw [ho _ (fun he => hqp (List.append_cancel_left he))]
      rcases h.src q with h1 | ⟨h1, h2, h3, h4⟩
      · exact Or.inl h1
      · exact Or.inr ⟨h1, h2, h3, fun n hn => (h4 n hn).congr (hdd q)⟩
  · intro q hq hx; rw [hd q hq]; exact h.ddir q hq hx
  · intro q hq hq'
    by_cases hqp : q = p
    · subst hqp
      obtain ⟨n, hn⟩ := hsome
      rw [hg, hn] at hq'
      cases hq'
    · have ho' := ho _ (fun he : source ++ q = source ++ p => hqp (List.append_cancel_left he))
      rw [ho'] at hq'
      have hcl := h.dst q hq hq'
      unfold Clean at hcl ⊢
      rw [hdd q, FS.isDir_congr ho', ho']
      exact hcl

theorem Moving.mono {fs : FS} {L' : List Path} (h : Moving source dest rm f0 L fs) (hl : ∀ p ∈ L, p ∈ L')
    (hc : ∀ p ∈ L', p ∉ L → Clean fs (source ++ p) (dest ++ p)) :
    Moving source dest rm f0 L' fs := by
  refine ⟨h.wf, ?_, ?_, ?_, h.ddir, fun p hp hs => if hpL : p ∈ L then h.dst p hpL hs else hc p hp hpL⟩
  · exact fun q hq hx => h.keeps q hq (fun p hp => hx p (hl p hp))
  · intro q hq hx hn
    rcases h.new q hq (fun p hp => hx p (hl p hp)) hn with h1 | ⟨h1, p, h2, h3⟩
    · exact Or.inl h1
    · exact Or.inr ⟨h1, p, hl p h2, h3⟩
  · intro p
    rcases h.src p with h1 | ⟨h1, h2, h3⟩
    · exact Or.inl h1
    · exact Or.inr ⟨h1, hl p h2, h3⟩

theorem Moving.refl (source dest : Path) (rm : Bool) {f0 : FS} (w : f0.WF) :
    Moving source dest rm f0 [] f0 :=
  ⟨w, fun _ _ _ _ h => h, fun _ _ _ h => Or.inl h, fun _ => Or.inl rfl, fun _ _ _ => rfl, fun _ h => by simp at h⟩

/-- The destination is clean when the turn of `p` comes. -/
theorem Moving.clean {fs : FS} {p : Path} (ha : Apart source dest) (w0 : f0.WF)
    (h : Moving source dest rm f0 L fs) (hL : ∀ p ∈ L, ∃ n, f0.get (source ++ p) = some n) (hp : p ∉ L)
    (hc : Clean f0 (source ++ p) (dest ++ p)) : Clean fs (source ++ p) (dest ++ p) := by
  have hs : fs.get (source ++ p) = f0.get (source ++ p) := by
    rcases h.src p with h1 | ⟨_, h2, _⟩
    · exact h1
    · exact absurd h2 hp
  have hx : ∀ p' ∈ L, dest ++ p ≠ dest ++ p' := by
    intro p' hp' he
    exact hp (by rw [List.append_cancel_left he]; exact hp')
  have hnd : ¬ source <+: dest ++ p := by
    intro hsd
    obtain ⟨t, ht⟩ := hsd
    exact ha.ne t p ht
  cases hg : f0.get (dest ++ p) with
  | some n =>
    unfold Clean at hc ⊢
    rw [h.keeps _ hnd hx n hg, FS.isDir_congr hs, hs]
    rw [hg] at hc
    exact hc
  | none =>
    rcases h.new _ hnd hx hg with h1 | ⟨h1, p', hp', h2⟩
    · unfold Clean; rw [h1]; trivial
    · obtain ⟨m, b, h3⟩ := FS.isDir_iff.1 h1
      unfold Clean
      rw [h3]
      dsimp only
      rw [FS.isDir_congr hs]
      obtain ⟨n, hn⟩ := hL p' hp'
      refine w0.isDir_prefix hn _ ?_ ?_
      · rw [List.prefix_append_right_inj] at h2 ⊢; exact h2
      · intro he
        exact hp (by rw [List.append_cancel_left he]; exact hp')

/-- One round of the loop. -/
theorem wp_transferOne {p : Path} {s : OS} (ha : Apart source dest) (w0 : f0.WF) (hgd : GoodPath dest)
    (hdd : f0.isDir dest = true) (hp0 : p ≠ [])
    (h : Moved source dest rm f0 L s.fs) (hL : ∀ p ∈ L, ∃ n, f0.get (source ++ p) = some n) (hp : p ∉ L)
    (hn : ∃ n, f0.get (source ++ p) = some n)
    (hc : ∀ q, q <+: p → Clean f0 (source ++ q) (dest ++ q)) :
    wp (transferOne source dest rm p) (fun _ s' => Moved source dest rm f0 (L ++ [p]) s'.fs)
      (fun _ s' => Moving source dest rm f0 (L ++ [p]) s'.fs) s := by
  obtain ⟨n, hn⟩ := hn
  have hpL : p ∈ L ++ [p] := by simp
  have hgp : GoodPath (dest ++ p) :=
    goodPath_append.2 ⟨hgd, (goodPath_append.1 (w0.goodPath hn)).2⟩
  have hnd : ∀ q, ¬ source <+: dest ++ q := by
    rintro q ⟨t, ht⟩
    exact ha.ne t q ht
  have hmov := h.toMoving.mono (L' := L ++ [p]) (by simp +contextual) (by
    intro q hq hqL
    have : q = p := by simpa [hqL] using hq
    subst this
    exact h.toMoving.clean ha w0 hL hp (hc q (List.prefix_refl q)))
  have hsame : s.fs.get (source ++ p) = f0.get (source ++ p) := by
    rcases h.src p with h1 | ⟨_, h2, _⟩
    · exact h1
    · exact absurd h2 hp
  have hsame' : ∀ fs', Grow (fun q => q ≠ [] ∧ q <+: (dest ++ p).dropLast) s.fs fs' →
      ∀ q, fs'.get (source ++ q) = s.fs.get (source ++ q) := by
    intro fs' hgr q
    apply hgr.get_eq
    rintro ⟨_, h⟩
    exact ha.not_prefix q p (h.trans (List.dropLast_prefix _))
  have hdl : (dest ++ p).dropLast = dest ++ p.dropLast := List.dropLast_append_of_ne_nil hp0
  unfold transferOne
  rw [wp_bind]
  refine wp_mono (wp_makedirs _ s) ?_ (fun _ s' hgr => hmov.grow ha w0 hpL ⟨n, hn⟩ hp0 hgp hgr)
  rintro _ s1 ⟨hgr, hdir⟩
  have hm1 := hmov.grow ha w0 hpL ⟨n, hn⟩ hp0 hgp hgr
  have hm1' := h.toMoving
  -- the state without `p`
  have hmL : Moving source dest rm f0 L s.fs := h.toMoving
  -- the parent is a directory
  have hpar : s1.fs.isDir (dest ++ p).dropLast = true := by
    rw [hdl] at hdir ⊢
    have hsd : f0.isDir (source ++ p.dropLast) = true := by
      refine w0.isDir_prefix hn _ ?_ ?_
      · rw [List.prefix_append_right_inj]; exact List.dropLast_prefix _
      · intro he
        exact (FS.dropLast_proper hp0).2 (List.append_cancel_left he)
    by_cases hdone : p.dropLast ∈ L
    · obtain ⟨m, b, hb⟩ := FS.isDir_iff.1 hsd
      have := h.copied _ hdone _ hb
      obtain ⟨m', b', hb'⟩ := FS.isDir_iff.1 this
      exact FS.isDir_iff.2 ⟨m', b', hgr.keeps _ _ hb'⟩
    · have hcl := hmL.clean ha w0 hL hdone (hc _ (List.dropLast_prefix p))
      have hsd' : s.fs.isDir (source ++ p.dropLast) = true := by
        rcases h.src p.dropLast with h1 | ⟨_, h2, _⟩
        · rw [FS.isDir_congr h1]; exact hsd
        · exact absurd h2 hdone
      cases hg : s1.fs.get (dest ++ p.dropLast) with
      | none =>
        exfalso
        obtain ⟨e, he⟩ := FS.stat_none hg
        unfold FS.pathIsDir at hdir
        rw [he] at hdir
        cases hdir
      | some x =>
        cases x with
        | dir m b => exact FS.isDir_iff.2 ⟨m, b, hg⟩
        | file c m b =>
          exfalso
          unfold FS.pathIsDir at hdir
          have hpe : s1.fs.pathErr (dest ++ p.dropLast) = none := hm1.wf.pathErr hg
          rw [FS.stat_nonlink hpe hg rfl] at hdir
          cases hdir
        | link t m =>
          exfalso
          have : s.fs.get (dest ++ p.dropLast) = some (.link t m) := by
            cases hg' : s.fs.get (dest ++ p.dropLast) with
            | some x => rw [hgr.keeps _ _ hg'] at hg; exact hg
            | none =>
              rcases hgr.new _ hg' with h1 | ⟨_, h1⟩
              · rw [h1] at hg; cases hg
              · obtain ⟨m, b, h2⟩ := FS.isDir_iff.1 h1
                rw [h2] at hg; cases hg
          unfold Clean at hcl
          rw [this] at hcl
          rw [hcl.1] at hsd'
          cases hsd'
  have hs1 : s1.fs.get (source ++ p) = some n := by rw [hsame' _ hgr, hsame, hn]
  have hcl : Clean s1.fs (source ++ p) (dest ++ p) := by
    have h1 := hmL.clean ha w0 hL hp (hc p (List.prefix_refl p))
    unfold Clean at h1 ⊢
    have h2 : s1.fs.get (dest ++ p) = s.fs.get (dest ++ p) := by
      apply hgr.get_eq
      rintro ⟨_, h3⟩
      have := h3.length_le
      have h4 := List.length_pos_iff.2 hp0
      simp at this
      omega
    rw [h2, FS.isDir_congr (hsame' _ hgr p), hsame' _ hgr p]
    exact h1
  have hs1' : s1.fs.get (source ++ p) = f0.get (source ++ p) := by rw [hs1, hn]
  rw [wp_bind]
  refine wp_mono (wp_copyEntry hm1.wf hgp (by simp [hp0]) hpar hs1 (ha.ne p p) hcl) ?_ ?_
  · rintro _ s2 ⟨hw2, ho2, hcp, hdk⟩
    have hm2 := hm1.at_ ha hpL hs1' ⟨n, hs1⟩ hw2 ho2 hdk (hcp.clean (by rw [ho2 _ (ha.ne p p)]; exact hs1))
    have hs2 : s2.fs.get (source ++ p) = some n := by rw [ho2 _ (ha.ne p p), hs1]
    have hcop : ∀ q ∈ L ++ [p], ∀ n, f0.get (source ++ q) = some n → Copied n s2.fs (dest ++ q) := by
      intro q hq n' hn'
      by_cases hqp : q = p
      · subst hqp
        rw [hn] at hn'; cases hn'
        exact hcp
      · have hqL : q ∈ L := by simpa [hqp] using hq
        have h1 := h.copied q hqL n' hn'
        have h2 := h1.keep (hgr.keeps _)
        exact h2.congr (ho2 _ (fun he => hqp (List.append_cancel_left he)))
    have hgoneL : rm = true → ∀ q ∈ L, s2.fs.get (source ++ q) = none := by
      intro hr q hq
      rw [ho2 _ (ha.ne q p), hsame' _ hgr]
      exact h.gone hr q hq
    cases rm with
    | false =>
      rw [if_neg (by simp), wp_pure]
      exact { hm2 with copied := hcop, gone := fun h => by cases h }
    | true =>
      rw [if_pos rfl]
      have hne : source ++ p ≠ [] := by simp [hp0]
      have fin : ∀ fs' : FS, fs' = s2.fs.rm (source ++ p) → fs'.WF → Moved source dest true f0 (L ++ [p]) fs' := by
        intro fs' he hw
        have ho : OnlyAt (source ++ p) s2.fs fs' := by rw [he]; exact OnlyAt.rm _ _
        have hg : fs'.get (source ++ p) = none := by rw [he]; exact FS.get_rm_self _ hne
        refine { hm2.rmSrc ha hpL ⟨n, hn⟩ (hcop p hpL) hw ho hg with copied := ?_, gone := ?_ }
        · intro q hq n' hn'
          exact (hcop q hq n' hn').congr (ho _ (ha.symm.ne q p))
        · intro _ q hq
          by_cases hqp : q = p
          · subst hqp; exact hg
          · rw [ho _ (fun he => hqp (List.append_cancel_left he))]
            exact hgoneL rfl q (by simpa [hqp] using hq)
      unfold FSTools.rmSrc
      rw [wp_tryCatch]
      apply wp_op
      · exact hm2
      · intro fs' hr
        exact fin fs' (FS.remove_ok hr).choose_spec.2.2.2 (hm2.wf.remove hr)
      · intro e _
        split
        · exact hm2
        · dsimp only
          apply wp_op
          · exact hm2
          · intro fs' hr
            obtain ⟨_, _, _, _, _, h5⟩ := FS.rmdir_ok hr
            exact fin fs' h5 (FS.WF.rmdir hm2.wf hr)
          · intro _ _
            exact hm2
  · rintro _ s2 ⟨hw2, ho2, hdk, hcl2⟩
    exact hm1.at_ ha hpL hs1' ⟨n, hs1⟩ hw2 ho2 hdk hcl2

end

/-- The whole loop. -/
theorem wp_transferLoop {source dest : Path} {rm : Bool} {s : OS} {l : List Path} (ha : Apart source dest)
    (w0 : s.fs.WF) (hgd : GoodPath dest) (hdd : s.fs.isDir dest = true) (hp0 : [] ∉ l) (hnd : l.Nodup)
    (hn : ∀ p ∈ l, ∃ n, s.fs.get (source ++ p) = some n)
    (hc : ∀ p ∈ l, ∀ q, q <+: p → Clean s.fs (source ++ q) (dest ++ q)) :
    wp (each (transferOne source dest rm) l) (fun _ s' => Moved source dest rm s.fs l s'.fs)
      (fun _ s' => Moving source dest rm s.fs l s'.fs) s := by
  apply wp_each (fun done (s' : OS) => Moved source dest rm s.fs done s'.fs)
  · intro done x rest hl s' hI
    have hx : x ∈ l := by simp [hl]
    refine wp_mono (wp_transferOne ha w0 hgd hdd (fun h => hp0 (h ▸ hx)) hI
      (fun p hp => hn p (by simp [hl, hp])) ?_ (hn x hx) (hc x hx)) (fun _ _ h => h) ?_
    · rw [hl, List.nodup_append] at hnd
      intro hxd
      exact hnd.2.2 x hxd x (by simp) rfl
    · intro _ s'' h
      refine h.mono (by intro p hp; simp only [List.mem_append, List.mem_singleton] at hp
                        rcases hp with hp | rfl <;> simp [hl, *]) ?_
      intro p hp hpd
      exact h.clean ha w0 (fun p' hp' => hn p' (by
        rw [hl]
        rcases List.mem_append.1 hp' with h1 | h1
        · exact List.mem_append_left _ h1
        · rw [List.mem_singleton.1 h1]
          simp)) hpd (hc p hp p (List.prefix_refl p))
  · exact { Moving.refl source dest rm w0 with
      copied := by intro p hp; simp at hp
      gone := by intro _ p hp; simp at hp }

/-! ### The list of paths -/

theorem scanTree_ok {fs : FS} (w : fs.WF) {p : Path} {es : List Path} (h : scanTree fs p = .ok es) :
    fs.isDir p = true ∧ es = (fs.below p).map Prod.fst := by
  unfold scanTree at h
  split at h
  · cases h
  · rename_i q m b hst
    split at h
    · rename_i hq
      cases h
      subst hq
      exact ⟨FS.isDir_iff.2 ⟨m, b, (FS.stat_ok hst).1⟩, rfl⟩
    · cases h
  · cases h

theorem scanTree_notDir {fs : FS} {p : Path} (h : scanTree fs p = .error .notDir)
    (w : fs.WF) : fs.isDir p = false := by
  cases hd : fs.isDir p with
  | false => rfl
  | true =>
    obtain ⟨m, b, hg⟩ := FS.isDir_iff.1 hd
    unfold scanTree at h
    rw [FS.stat_nonlink (w.pathErr hg) hg rfl] at h
    simp at h

theorem mem_keys_below {fs : FS} (w : fs.WF) {root p : Path} :
    p ∈ (fs.below root).map Prod.fst ↔ p ≠ [] ∧ ∃ n, fs.get (root ++ p) = some n := by
  simp only [List.mem_map, Prod.exists, exists_and_right, exists_eq_right]
  constructor
  · rintro ⟨n, hn⟩
    obtain ⟨h1, h2⟩ := w.mem_below_iff.1 hn
    exact ⟨h2, n, h1⟩
  · rintro ⟨h1, n, h2⟩
    exact ⟨n, w.mem_below_iff.2 ⟨h2, h1⟩⟩

theorem nodup_keys_below {fs : FS} (w : fs.WF) (root : Path) : ((fs.below root).map Prod.fst).Nodup := by
  have h := w.nodup
  unfold FS.below
  rw [List.map_filterMap]
  clear w
  induction fs with
  | nil => simp
  | cons e fs ih =>
    rw [List.map_cons, List.nodup_cons] at h
    rw [List.filterMap_cons]
    split
    · exact ih h.2
    · rename_i q hq
      rw [List.nodup_cons]
      refine ⟨?_, ih h.2⟩
      intro hm
      rw [List.mem_filterMap] at hm
      obtain ⟨e', he', hq'⟩ := hm
      apply h.1
      rw [List.mem_map]
      refine ⟨e', he', ?_⟩
      have aux : ∀ x : Path × Node, Option.map Prod.fst (if root.isPrefixOf x.1 ∧ x.1 ≠ root then
          some (x.1.drop root.length, x.2) else none) = some q → x.1 = root ++ q := by
        intro x hx
        split at hx
        · rename_i hc
          simp only [Option.map_some, Option.some.injEq] at hx
          have := List.isPrefixOf_iff_prefix.1 hc.1
          rw [← hx]
          exact (List.prefix_iff_eq_append.1 this).symm
        · simp at hx
      rw [aux e hq, aux e' hq']

theorem relPaths_ok {fs : FS} (w : fs.WF) {source : Path} : ∀ {files acc ps : List Path},
    relPaths fs source files acc = .ok ps → acc.Nodup →
      ps.Nodup ∧ ∀ p, p ∈ ps ↔ p ∈ acc ∨ ∃ f ∈ files, (fs.isDir (source ++ f) = false ∧ p = f) ∨
        (fs.isDir (source ++ f) = true ∧ f <+: p ∧ f ≠ p ∧ ∃ n, fs.get (source ++ p) = some n)
  | [], acc, ps, h, hn => by
    cases h
    exact ⟨hn, by simp⟩
  | f :: files, acc, ps, h, hn => by
    unfold relPaths at h
    split at h
    · rename_i es hes
      obtain ⟨hd, rfl⟩ := scanTree_ok w hes
      have hmem : ∀ (es acc : List Path) p, p ∈ es.foldl (fun acc e => setAdd (f ++ e) acc) acc ↔
          p ∈ acc ∨ ∃ e ∈ es, p = f ++ e := by
        intro es
        induction es with
        | nil => simp
        | cons e es ih =>
          intro acc p
          rw [List.foldl_cons, ih, mem_setAdd]
          simp only [List.mem_cons, exists_eq_or_imp]
          tauto
      have hnod : ∀ (es acc : List Path), acc.Nodup →
          (es.foldl (fun acc e => setAdd (f ++ e) acc) acc).Nodup := by
        intro es
        induction es with
        | nil => exact fun _ h => h
        | cons e es ih => exact fun acc h => ih _ (nodup_setAdd h)
      obtain ⟨h1, h2⟩ := relPaths_ok w h (hnod _ _ hn)
      refine ⟨h1, fun p => ?_⟩
      rw [h2, hmem]
      simp only [List.mem_cons, exists_eq_or_imp, hd, mem_keys_below w]
      constructor
      · rintro ((h | ⟨e, ⟨he, n, hn⟩, rfl⟩) | h)
        · exact Or.inl h
        · refine Or.inr (Or.inl (Or.inr ⟨trivial, List.prefix_append _ _, ?_, n, by simpa using hn⟩))
          intro h
          exact he (by simpa using h)
        · exact Or.inr (Or.inr h)
      · rintro (h | (⟨h, _⟩ | ⟨_, ⟨e, rfl⟩, h3, n, h4⟩) | h)
        · exact Or.inl (Or.inl h)
        · cases h
        · exact Or.inl (Or.inr ⟨e, ⟨by rintro rfl; simp at h3, n, by simpa using h4⟩, rfl⟩)
        · exact Or.inr h
    · rename_i hes
      have hd := scanTree_notDir hes w
      obtain ⟨h1, h2⟩ := relPaths_ok w h (nodup_setAdd hn)
      refine ⟨h1, fun p => ?_⟩
      rw [h2, mem_setAdd]
      simp only [List.mem_cons, exists_eq_or_imp, hd]
      constructor
      · rintro ((h | h) | h)
        · exact Or.inr (Or.inl (Or.inl ⟨trivial, h⟩))
        · exact Or.inl h
        · exact Or.inr (Or.inr h)
      · rintro (h | (⟨_, h⟩ | ⟨h, _⟩) | h)
        · exact Or.inl (Or.inr h)
        · exact Or.inl (Or.inl h)
        · cases h
        · exact Or.inr h
    · cases h

theorem mem_descending {l : List Path} {p : Path} : p ∈ descending l ↔ p ∈ l := by
  unfold descending
  exact (sortBy_perm _).mem_iff

theorem nodup_descending {l : List Path} (h : l.Nodup) : (descending l).Nodup :=
  (sortBy_perm _).nodup_iff.2 h

/-- `p` is one of the paths that `transfer_tree` is asked to copy: a listed path or below one. -/
def Listed (fs : FS) (source : Path) (files : Option (List Path)) (p : Path) : Prop :=
  (∃ n, fs.get (source ++ p) = some n) ∧ p ≠ [] ∧
    match files with
    | none => True
    | some files => ∃ f ∈ files, f <+: p

theorem listPaths_ok {fs : FS} (w : fs.WF) {source : Path} (hsd : fs.isDir source = true)
    {files : Option (List Path)}
    (hex : ∀ fl, files = some fl → ∀ f ∈ fl, ∃ n, fs.get (source ++ f) = some n) {ps : List Path}
    (h : listPaths fs source files = .ok ps) :
    ps.Nodup ∧ (∀ p ∈ ps, Listed fs source files p) ∧
      (∀ p, Listed fs source files p → p ∈ ps ∨ ∃ fl, files = some fl ∧ p ∈ fl ∧ fs.isDir (source ++ p) = true) := by
  cases files with
  | none =>
    obtain ⟨_, rfl⟩ := scanTree_ok w h
    refine ⟨nodup_keys_below w _, ?_, ?_⟩
    · intro p hp
      obtain ⟨h1, h2⟩ := (mem_keys_below w).1 hp
      exact ⟨h2, h1, trivial⟩
    · rintro p ⟨h1, h2, _⟩
      exact Or.inl ((mem_keys_below w).2 ⟨h2, h1⟩)
  | some fl =>
    obtain ⟨h1, h2⟩ := relPaths_ok w h List.nodup_nil
    refine ⟨h1, ?_, ?_⟩
    · intro p hp
      rcases (h2 p).1 hp with h3 | ⟨f, hf, (⟨h3, rfl⟩ | ⟨h3, h4, h5, h6⟩)⟩
      · simp at h3
      · refine ⟨hex fl rfl _ hf, ?_, p, hf, List.prefix_refl _⟩
        rintro rfl
        rw [List.append_nil, hsd] at h3
        cases h3
      · refine ⟨h6, ?_, f, hf, h4⟩
        rintro rfl
        exact h5 (List.prefix_nil.1 h4)
    · rintro p ⟨⟨n, hn⟩, h3, f, hf, h4⟩
      by_cases hfp : f = p
      · subst hfp
        cases hd : fs.isDir (source ++ f) with
        | true => exact Or.inr ⟨fl, rfl, hf, rfl⟩
        | false => exact Or.inl ((h2 f).2 (Or.inr ⟨f, hf, Or.inl ⟨hd, rfl⟩⟩))
      · left
        refine (h2 p).2 (Or.inr ⟨f, hf, Or.inr ⟨?_, h4, hfp, n, hn⟩⟩)
        refine w.isDir_prefix hn _ ?_ ?_
        · rw [List.prefix_append_right_inj]; exact h4
        · intro he; exact hfp (List.append_cancel_left he)

/-- `transfer_tree`, if the listed files exist and their destinations are clean. -/
theorem wp_transferTree {source dest : Path} {files : Option (List Path)} {exclude : List Path} {rm : Bool}
    {s : OS} (ha : Apart source dest) (w : s.fs.WF) (hsd : s.fs.isDir source = true)
    (hdd : s.fs.isDir dest = true)
    (hex : ∀ fl, files = some fl → ∀ f ∈ fl, ∃ n, s.fs.get (source ++ f) = some n)
    (hc : ∀ p, Listed s.fs source files p → p ∉ exclude →
      ∀ q, q <+: p → Clean s.fs (source ++ q) (dest ++ q)) :
    wp (transferTree source dest files exclude rm)
      (fun _ s' => ∃ l, Moved source dest rm s.fs l s'.fs ∧
        (∀ p ∈ l, Listed s.fs source files p ∧ p ∉ exclude) ∧
        (∀ p, Listed s.fs source files p → p ∉ exclude →
          p ∈ l ∨ ∃ fl, files = some fl ∧ p ∈ fl ∧ s.fs.isDir (source ++ p) = true))
      (fun _ s' => ∃ l, Moving source dest rm s.fs l s'.fs ∧
        (∀ p ∈ l, Listed s.fs source files p ∧ p ∉ exclude)) s := by
  have hno : ∃ l, Moving source dest rm s.fs l s.fs ∧
      (∀ p ∈ l, Listed s.fs source files p ∧ p ∉ exclude) :=
    ⟨[], Moving.refl _ _ _ w, by simp⟩
  have hgd : GoodPath dest := by
    obtain ⟨m, b, h⟩ := FS.isDir_iff.1 hdd
    exact w.goodPath h
  unfold transferTree
  rw [wp_bind, wp_ask]
  split
  · rw [wp_bind, wp_query]
    refine ⟨?_, fun _ _ => hno⟩
    intro ps hps
    obtain ⟨h1, h2, h3⟩ := listPaths_ok w hsd hex hps
    have hmem : ∀ p, p ∈ descending (ps.filter (fun p => decide (p ∉ exclude))) ↔
        p ∈ ps ∧ p ∉ exclude := by
      intro p
      rw [mem_descending, List.mem_filter]
      simp
    refine wp_mono (wp_transferLoop ha w hgd hdd ?_ (nodup_descending (h1.filter _)) ?_ ?_) ?_ ?_
    · intro h
      exact (h2 _ ((hmem _).1 h).1).2.1 rfl
    · intro p hp
      exact (h2 _ ((hmem _).1 hp).1).1
    · intro p hp
      exact hc p (h2 _ ((hmem _).1 hp).1) ((hmem _).1 hp).2
    · intro _ s' hm
      refine ⟨_, hm, fun p hp => ⟨h2 _ ((hmem _).1 hp).1, ((hmem _).1 hp).2⟩, ?_⟩
      intro p hp hx
      rcases h3 p hp with h4 | h4
      · exact Or.inl ((hmem p).2 ⟨h4, hx⟩)
      · exact Or.inr h4
    · intro _ s' hm
      exact ⟨_, hm, fun p hp => ⟨h2 _ ((hmem _).1 hp).1, ((hmem _).1 hp).2⟩⟩
  · rw [wp_throw]
    exact hno

end Verif
