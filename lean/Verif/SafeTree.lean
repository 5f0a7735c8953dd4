import Verif.Safe
/-
When copying trees and linking trees raises nothing.
-/
namespace Verif
open Prog OSM Call FSTools WM

theorem Safe.tryCatch {σ α : Type} {m : Prog σ α} {h : Err → Option (Prog σ α)} {s : σ} (hm : Safe m s) :
    Safe (Prog.tryCatch m h) s := by
  unfold Safe
  rw [wp_tryCatch]
  refine wp_mono hm (fun _ _ h => h) (fun e s' h => ?_)
  rw [if_pos h]; exact h

/-- On the way to `p`, and at `p`, there are only directories, or nothing. -/
def WayTo (fs : FS) (p : Path) : Prop := ∀ q, q <+: p → fs.get q = none ∨ fs.isDir q = true

theorem WayTo.isDir {fs : FS} {p : Path} (h : WayTo fs p) (he : ∃ n, fs.get p = some n) : fs.isDir p = true := by
  obtain ⟨n, hn⟩ := he
  rcases h p (List.prefix_refl _) with h1 | h1
  · rw [hn] at h1; cases h1
  · exact h1

theorem WayTo.grow {P : Path → Prop} {fs fs' : FS} {p : Path} (h : WayTo fs p) (hg : Grow P fs fs') : WayTo fs' p := by
  intro q hq
  rcases h q hq with h1 | h1
  · rcases hg.new q h1 with h2 | ⟨_, h2⟩
    · exact Or.inl h2
    · exact Or.inr h2
  · obtain ⟨m, b, h2⟩ := FS.isDir_iff.1 h1
    exact Or.inr (FS.isDir_iff.2 ⟨m, b, hg.keeps _ _ h2⟩)

theorem safe_mkdirOk {p : Path} {s : OS} (hpe : s.fs.pathErr p = none)
    (h : s.fs.get p = none ∨ s.fs.isDir p = true) : Safe (mkdirOk p) s := by
  unfold mkdirOk Safe
  rw [wp_tryCatch]
  rcases h with h | h
  · refine wp_op (by simp) (fun _ _ => trivial) (fun e he => ?_)
    have := he.symm.trans (FS.create_isSome hpe h)
    cases this
  · refine wp_op (by simp) (fun _ _ => trivial) (fun e he => ?_)
    split
    · assumption
    · obtain ⟨m, b, hg⟩ := FS.isDir_iff.1 h
      show wp (unlessDir p e) _ _ _
      unfold unlessDir
      rw [wp_bind, wp_ask]
      have : (OS.next s s.fs).fs.pathIsDir p = true := by
        show s.fs.pathIsDir p = true
        unfold FS.pathIsDir
        rw [FS.stat_nonlink hpe hg rfl]
        rfl
      rw [if_pos this, wp_pure]
      trivial

theorem safe_makedirsRev : ∀ {rev : Path} {s : OS}, s.fs.WF → GoodPath rev.reverse → WayTo s.fs rev.reverse →
    Safe (makedirsRev rev) s
  | [], s, wf, _, h => by
    rw [makedirsRev]
    exact safe_mkdirOk (by simp [FS.pathErr]) (h [] (by simp))
  | c :: rev, s, wf, hg, h => by
    have hcons : (c :: rev).reverse = rev.reverse ++ [c] := by simp
    have h' : WayTo s.fs rev.reverse := fun q hq => h q (by rw [hcons]; exact hq.trans (List.prefix_append _ _))
    have hgr : GoodPath rev.reverse := by
      rw [hcons] at hg
      exact (goodPath_append.1 hg).1
    have last : ∀ s1 : OS, s1.fs.WF → WayTo s1.fs (c :: rev).reverse → s1.fs.isDir rev.reverse = true →
        Safe (mkdirOk (c :: rev).reverse) s1 := by
      intro s1 wf1 h1 hd
      refine safe_mkdirOk (pathErr_of_parent wf1 (by simp) ?_) (h1 _ (List.prefix_refl _))
      rw [hcons]; simpa using hd
    unfold Safe
    rw [makedirsRev, wp_bind, wp_ask]
    split
    · rename_i hb
      refine last s wf h (h'.isDir ?_)
      rcases Option.eq_none_or_eq_some (s.fs.get rev.reverse) with h1 | h1
      · obtain ⟨e, he⟩ := FS.stat_none h1
        unfold FS.pathExists at hb
        rw [he] at hb; cases hb
      · exact h1
    · refine Safe.bind (Safe.tryCatch (safe_makedirsRev wf hgr h'))
        (Q := fun _ s1 => s1.fs.WF ∧ WayTo s1.fs (c :: rev).reverse ∧ s1.fs.isDir rev.reverse = true)
        (E := fun _ _ => True) ?_ (fun _ s1 h1 => last s1 h1.1 h1.2.1 h1.2.2)
      rw [wp_tryCatch]
      refine wp_mono ((safe_makedirsRev wf hgr h').and (wp_makedirsRev rev s)) ?_ ?_
      · rintro _ s1 ⟨h1, h2⟩
        refine ⟨h1.wf ?_ wf, h.grow h1, (h'.grow h1).isDir ?_⟩
        · rintro q ⟨_, t, e⟩
          rw [← e] at hgr
          exact (goodPath_append.1 hgr).1
        · rcases Option.eq_none_or_eq_some (s1.fs.get rev.reverse) with h3 | h3
          · obtain ⟨e, he⟩ := FS.stat_none h3
            unfold FS.pathIsDir at h2
            rw [he] at h2; cases h2
          · exact h3
      · intro e s1 he
        rw [if_pos he]; trivial

/-- `os.makedirs(p, exist_ok=True)` raises nothing if only directories are on the way. -/
theorem safe_makedirs_way {p : Path} {s : OS} (wf : s.fs.WF) (hg : GoodPath p) (h : WayTo s.fs p) :
    Safe (makedirs p) s := by
  unfold makedirs
  exact safe_makedirsRev wf (by rw [List.reverse_reverse]; exact hg) (by rw [List.reverse_reverse]; exact h)

/-! ### Copying -/

/-- Copying a file to a clean destination raises nothing. -/
theorem safe_copyEntry_file {src dst : Path} {s : OS} {c : Nat} {m : Int} {b : Nat} (w : Spot s.fs dst)
    (hs : s.fs.get src = some (.file c m b)) (hne : src ≠ dst) (hc : Clean s.fs src dst) :
    Safe (copyEntry src dst) s := by
  unfold copyEntry Safe
  rw [wp_tryCatch]
  by_cases hl : ∃ t m, s.fs.get dst = some (.link t m)
  · obtain ⟨t, m', hl⟩ := hl
    unfold Clean at hc
    rw [hl] at hc
    dsimp only at hc
    have hto : FS.linkDest dst t = src := by
      rcases hc.2 with h | ⟨_, _, h⟩
      · exact h
      · rw [hs] at h; cases h
    have hst : s.fs.stat dst = .ok (src, .file c m b) :=
      FS.stat_link w.pathErr hl hto (w.wf.pathErr hs) hs rfl
    have hss : s.fs.stat src = .ok (src, .file c m b) := FS.stat_nonlink (w.wf.pathErr hs) hs rfl
    have hisd : s.fs.pathIsDir dst = false := by unfold FS.pathIsDir; rw [hst]; rfl
    have hsame : sameFile s.fs src dst = true := by unfold sameFile; rw [hst, hss]; simp
    unfold copy2
    rw [wp_bind, wp_ask, hisd]
    simp only [Bool.false_eq_true, if_false]
    unfold copyTo
    rw [wp_bind, wp_ask, hsame]
    simp only [if_true]
    rw [wp_throw, if_neg (by decide)]
    show wp (do remove dst; copy2 src dst) _ _ s
    rw [wp_bind]
    refine wp_op rfl ?_ ?_
    · intro f1 h1
      obtain ⟨_, _, _, _, e1⟩ := FS.remove_ok h1
      have s1 : Spot f1 dst := by rw [e1]; exact w.rm
      have o1 : OnlyAt dst s.fs f1 := by rw [e1]; exact OnlyAt.rm _ _
      have g1 : f1.get dst = none := by rw [e1]; exact FS.get_rm_self _ w.ne
      have hs1 : f1.get src = some (.file c m b) := by rw [o1 src hne]; exact hs
      exact wp_mono (wp_copy2_file (s := OSM.OS.next s f1) s1 hs1 hne (fun t m h => by
        change f1.get dst = _ at h; rw [g1] at h; cases h)) (fun _ _ _ => trivial) (fun _ _ h => h.1)
    · intro e he
      unfold FS.remove at he
      rw [w.wf.lstat_iff.2 hl] at he
      cases he
  · refine wp_mono (wp_copy2_file w hs hne (fun t m h => hl ⟨t, m, h⟩)) (fun _ _ _ => trivial) ?_
    rintro e s1 ⟨rfl, h1, h2⟩
    rw [if_pos rfl]

/-- Copying a directory raises nothing if the destination is missing or a directory, and no link with the name of the
directory leads back from there. -/
theorem safe_copyEntry_dir {src dst : Path} {s : OS} {m : Int} {b : Nat} (w : s.fs.WF)
    (hg : GoodPath dst) (hne : dst ≠ []) (hpar : s.fs.isDir dst.dropLast = true)
    (hs : s.fs.get src = some (.dir m b)) (hd : s.fs.get dst = none ∨ s.fs.isDir dst = true) (hsd : src ≠ dst)
    (hback : ∀ n, s.fs.stat (dst ++ [src.getLastD []]) ≠ .ok (src, n)) : Safe (copyEntry src dst) s := by
  have hss : s.fs.stat src = .ok (src, .dir m b) := FS.stat_nonlink (w.pathErr hs) hs rfl
  have hpe : s.fs.pathErr dst = none := pathErr_of_parent w hne hpar
  have hway : WayTo s.fs dst := by
    intro q hq
    by_cases he : q = dst
    · subst he; exact hd
    · exact Or.inr (FS.pathErr_none_iff.1 hpe q hq he)
  have hsame : sameFile s.fs src (if s.fs.pathIsDir dst then dst ++ [src.getLastD []] else dst) = false := by
    cases hb : s.fs.pathIsDir dst with
    | true =>
      rw [if_pos rfl]
      unfold sameFile
      rw [hss]
      cases hst : s.fs.stat (dst ++ [src.getLastD []]) with
      | error e => rfl
      | ok r =>
        obtain ⟨q, n⟩ := r
        simp only [decide_eq_false_iff_not]
        rintro rfl
        exact hback n hst
    | false =>
      rw [if_neg (by simp)]
      unfold sameFile
      rw [hss]
      rcases hd with hd | hd
      · obtain ⟨e, he⟩ := FS.stat_none hd
        rw [he]
      · exfalso
        obtain ⟨m', b', hg'⟩ := FS.isDir_iff.1 hd
        unfold FS.pathIsDir at hb
        rw [FS.stat_nonlink hpe hg' rfl] at hb
        cases hb
  unfold copyEntry Safe
  rw [wp_tryCatch]
  unfold copy2
  rw [wp_bind, wp_ask]
  unfold copyTo
  rw [wp_bind, wp_ask, hsame]
  simp only [Bool.false_eq_true, if_false]
  rw [wp_bind, wp_ask, hss, w.lstat_iff.2 hs]
  dsimp only
  rw [wp_throw, if_neg (by decide)]
  exact safe_makedirs_way w hg hway

/-- What is assumed for a transfer of the paths `L` that raises nothing: the sources are files and directories, a
directory goes where nothing or a directory is, and links in the destination lead to their own places. -/
structure Movable (source dest : Path) (f0 : FS) (L : List Path) : Prop where
  nolink : ∀ p ∈ L, ∀ t m, f0.get (source ++ p) ≠ some (.link t m)
  dirs : ∀ p ∈ L, ∀ q, q <+: p → f0.isDir (source ++ q) = true →
    f0.get (dest ++ q) = none ∨ f0.isDir (dest ++ q) = true
  back : ∀ p ∈ L, ∀ t m, f0.get (dest ++ (p ++ [p.getLastD []])) = some (.link t m) →
    FS.linkDest (dest ++ (p ++ [p.getLastD []])) t = source ++ (p ++ [p.getLastD []]) ∧
    ∀ t m, f0.get (source ++ (p ++ [p.getLastD []])) ≠ some (.link t m)

theorem getLastD_append {a b : Path} (h : b ≠ []) : (a ++ b).getLastD [] = b.getLastD [] := by
  rw [List.getLastD_eq_getLast?, List.getLastD_eq_getLast?, List.getLast?_append]
  cases hb : b.getLast? with
  | none => exact absurd (List.getLast?_eq_none_iff.1 hb) h
  | some x => rfl

theorem stat_of_linkDest {fs : FS} {p q : Path} {t : Str} {m : Int} (hg : fs.get p = some (.link t m))
    (hd : FS.linkDest p t = q) (hq : ∀ t m, fs.get q ≠ some (.link t m)) {r : Path} {n : Node}
    (h : fs.stat p = .ok (r, n)) : r = q := by
  unfold FS.stat at h
  cases hf : fs.follow 40 p with
  | error e => rw [hf] at h; cases h
  | ok x =>
    rw [hf] at h
    have hx : x = q := by
      cases hpe : fs.pathErr p with
      | some e => rw [FS.follow] at hf; simp [hpe] at hf
      | none =>
        rw [FS.follow_link hpe hg, hd] at hf
        cases hpq : fs.pathErr q with
        | some e => rw [FS.follow] at hf; simp [hpq] at hf
        | none =>
          rw [FS.follow_nonlink hpq hq] at hf
          cases hf; rfl
    dsimp only at h
    split at h
    · cases h; exact hx
    · cases h

/-- Removing the source after it has been copied raises nothing if nothing is left below it. -/
theorem safe_rmSrc {p : Path} {s : OS} (w : s.fs.WF) {n : Node} (hn : s.fs.get p = some n)
    (hb : ∀ q, p <+: q → p ≠ q → s.fs.get q = none) : Safe (rmSrc p) s := by
  unfold rmSrc Safe
  rw [wp_tryCatch]
  refine wp_op (by simp) (fun _ _ => trivial) (fun e he => ?_)
  split
  · assumption
  · dsimp only
    have hd : s.fs.isDir p = true := by
      rw [isDir_iff_false hn]
      unfold FS.remove at he
      rw [w.lstat_iff.2 hn] at he
      cases n with
      | dir m b => rfl
      | _ => cases he
    refine wp_op rfl (fun _ _ => trivial) (fun e' he' => ?_)
    rcases rmdir_error (show FS.WF (OS.next s s.fs).fs from w) he' with h1 | ⟨q, h1, h2, h3⟩
    · rw [show (OS.next s s.fs).fs.isDir p = s.fs.isDir p from rfl, hd] at h1; cases h1
    · exact absurd (hb q h1 h2) h3

section
variable {source dest : Path} {f0 : FS} {L : List Path} {rm : Bool}

theorem safe_transferOne {p : Path} {s : OS} (ha : Apart source dest) (w0 : f0.WF) (hgd : GoodPath dest)
    (hdd : f0.isDir dest = true) (hp0 : p ≠ [])
    (h : Moved source dest rm f0 L s.fs) (hL : ∀ p ∈ L, ∃ n, f0.get (source ++ p) = some n) (hp : p ∉ L)
    (hn : ∃ n, f0.get (source ++ p) = some n)
    (hc : ∀ q, q <+: p → Clean f0 (source ++ q) (dest ++ q)) (hpl : Movable source dest f0 (L ++ [p]))
    (hkids : rm = true → ∀ q, p <+: q → p ≠ q → (∃ n, f0.get (source ++ q) = some n) → q ∈ L) :
    Safe (transferOne source dest rm p) s := by
  obtain ⟨n, hn⟩ := hn
  have hpL : p ∈ L ++ [p] := by simp
  have hgp : GoodPath (dest ++ p) :=
    goodPath_append.2 ⟨hgd, (goodPath_append.1 (w0.goodPath hn)).2⟩
  have hnd : ∀ q, ¬ source <+: dest ++ q := by
    rintro q ⟨t, ht⟩
    exact ha.ne t q ht
  have hdl : (dest ++ p).dropLast = dest ++ p.dropLast := List.dropLast_append_of_ne_nil hp0
  have hsrc : s.fs.get (source ++ p) = f0.get (source ++ p) := by
    rcases h.src p with h1 | ⟨_, h1, _⟩
    · exact h1
    · exact absurd h1 hp
  -- what is a directory in the source is missing or a directory in the destination
  have hdir : ∀ q, q <+: p → f0.isDir (source ++ q) = true → s.fs.get (dest ++ q) = none ∨ s.fs.isDir (dest ++ q) = true := by
    intro q hq hqd
    by_cases hqL : q ∈ L
    · obtain ⟨m, b, hb⟩ := FS.isDir_iff.1 hqd
      exact Or.inr (h.copied q hqL _ hb)
    · have hx : ∀ p' ∈ L, dest ++ q ≠ dest ++ p' := fun p' hp' e => hqL (by rw [List.append_cancel_left e]; exact hp')
      rcases hpl.dirs p hpL q hq hqd with h1 | h1
      · rcases h.new _ (hnd q) hx h1 with h2 | ⟨h2, _⟩
        · exact Or.inl h2
        · exact Or.inr h2
      · exact Or.inr (by rw [FS.isDir_congr (h.ddir _ (hnd q) h1)]; exact h1)
  have hway : WayTo s.fs (dest ++ p).dropLast := by
    rw [hdl]
    intro q hq
    rcases List.prefix_or_prefix_of_prefix hq (List.prefix_append dest p.dropLast) with h1 | ⟨q', rfl⟩
    · right
      have hds : s.fs.isDir dest = true := by
        rw [FS.isDir_congr (h.ddir dest (by have := hnd []; rwa [List.append_nil] at this) hdd)]; exact hdd
      by_cases he : q = dest
      · rw [he]; exact hds
      · obtain ⟨m, b, hb⟩ := FS.isDir_iff.1 hds
        exact h.wf.isDir_prefix hb q h1 he
    · rw [List.prefix_append_right_inj] at hq
      refine hdir q' (hq.trans (List.dropLast_prefix _)) (w0.isDir_prefix hn _ ?_ ?_)
      · rw [List.prefix_append_right_inj]; exact hq.trans (List.dropLast_prefix _)
      · intro e
        have h2 := hq.length_le
        rw [List.append_cancel_left e] at h2
        have := List.length_pos_iff.2 hp0
        simp at h2
        omega
  have hgdl : GoodPath (dest ++ p).dropLast := by
    obtain ⟨t, e⟩ := List.dropLast_prefix (dest ++ p)
    rw [← e] at hgp
    exact (goodPath_append.1 hgp).1
  unfold transferOne
  refine Safe.bind (safe_makedirs_way h.wf hgdl hway) (wp_makedirs _ s) ?_
  rintro _ s1 ⟨hgr, hpd⟩
  have hpar : s1.fs.isDir (dest ++ p).dropLast = true := by
    refine (hway.grow hgr).isDir ?_
    rcases Option.eq_none_or_eq_some (s1.fs.get (dest ++ p).dropLast) with h3 | h3
    · obtain ⟨e, he⟩ := FS.stat_none h3
      unfold FS.pathIsDir at hpd
      rw [he] at hpd; cases hpd
    · exact h3
  have wf1 : s1.fs.WF := by
    refine hgr.wf ?_ h.wf
    rintro q ⟨_, t, e⟩
    rw [← e] at hgdl
    exact (goodPath_append.1 hgdl).1
  have hsrc1 : ∀ q, s1.fs.get (source ++ q) = s.fs.get (source ++ q) := by
    intro q
    apply hgr.get_eq
    rintro ⟨_, h1⟩
    exact ha.not_prefix q p (h1.trans (List.dropLast_prefix _))
  have long : ∀ q, ¬ (q.length < p.length) → s1.fs.get (dest ++ q) = s.fs.get (dest ++ q) := by
    intro q hq
    apply hgr.get_eq
    rintro ⟨_, h1⟩
    have h2 := h1.length_le
    have := List.length_pos_iff.2 hp0
    rw [hdl] at h2
    simp at h2
    omega
  have hs1 : s1.fs.get (source ++ p) = some n := by rw [hsrc1, hsrc, hn]
  have hcl1 : Clean s1.fs (source ++ p) (dest ++ p) :=
    (h.toMoving.clean ha w0 hL hp (hc p (List.prefix_refl p))).congr (hsrc1 p) (long p (by omega))
  refine Safe.bind (Q := fun _ (s2 : OS) => s2.fs.WF ∧ OnlyAt (dest ++ p) s1.fs s2.fs) (E := fun _ _ => True) ?_
    (wp_mono (wp_copyEntry wf1 hgp (by simp [hp0]) hpar hs1 (ha.ne p p) hcl1) (fun _ _ h => ⟨h.1, h.2.1⟩)
      (fun _ _ _ => trivial)) ?_
  swap
  · rintro _ s2 ⟨wf2, ho2⟩
    cases rm with
    | false => rw [if_neg (by simp)]; trivial
    | true =>
      rw [if_pos rfl]
      refine safe_rmSrc wf2 (n := n) (by rw [ho2 _ (ha.ne p p)]; exact hs1) ?_
      rintro q ⟨t, rfl⟩ hne
      rw [List.append_assoc] at hne ⊢
      rw [ho2 _ (ha.ne _ p), hsrc1]
      have hpt : p <+: p ++ t := List.prefix_append _ _
      have hpt' : p ≠ p ++ t := fun e => hne (by rw [← e])
      rcases Option.eq_none_or_eq_some (f0.get (source ++ (p ++ t))) with h1 | h1
      · rcases h.src (p ++ t) with h2 | ⟨_, _, h2, _⟩
        · rw [h2, h1]
        · exact h2
      · exact h.gone rfl _ (hkids rfl _ hpt hpt' h1)
  cases n with
  | link t m => exact absurd hn (hpl.nolink p hpL t m)
  | file c m b =>
    refine safe_copyEntry_file ⟨wf1, by simp [hp0], hgp, hpar, ?_⟩ hs1 (ha.ne p p) hcl1
    unfold Clean at hcl1
    cases hg : s1.fs.get (dest ++ p) with
    | none => unfold FS.isDir; rw [hg]; rfl
    | some x =>
      cases x with
      | dir m' b' =>
        rw [hg] at hcl1
        dsimp only at hcl1
        rw [isDir_iff_false hs1] at hcl1
        cases hcl1
      | _ => unfold FS.isDir; rw [hg]; rfl
  | dir m b =>
    refine safe_copyEntry_dir wf1 hgp (by simp [hp0]) hpar hs1 ?_ (ha.ne p p) ?_
    · rcases hdir p (List.prefix_refl _) (FS.isDir_iff.2 ⟨_, _, hn⟩) with h1 | h1
      · exact Or.inl ((long p (by omega)).trans h1)
      · exact Or.inr (by rw [FS.isDir_congr (long p (by omega))]; exact h1)
    · intro x hst
      rw [getLastD_append hp0, List.append_assoc] at hst
      generalize hqe : p ++ [p.getLastD []] = q at hst
      have hql : q.length = p.length + 1 := by rw [← hqe]; simp
      have hqp : source ++ q ≠ source ++ p := by
        intro e
        rw [List.append_cancel_left e] at hql
        omega
      rcases Option.eq_none_or_eq_some (s1.fs.get (dest ++ q)) with h1 | ⟨y, h1⟩
      · obtain ⟨e, he⟩ := FS.stat_none h1
        rw [he] at hst; cases hst
      · have h2 := h1
        rw [long q (by omega)] at h2
        cases y with
        | link t m' =>
          have hqL : q ∉ L := by
            intro hqL
            obtain ⟨z, hz⟩ := hL q hqL
            have hcp := h.copied q hqL z hz
            unfold Copied at hcp
            cases z with
            | dir => dsimp only at hcp; rw [isDir_iff_false h2] at hcp; cases hcp
            | file => dsimp only at hcp; rw [h2] at hcp; cases hcp
            | link t' m'' => exact absurd hz (hpl.nolink q (by simp [hqL]) _ _)
          have h3 : f0.get (dest ++ q) = some (.link t m') := by
            have hx : ∀ p' ∈ L, dest ++ q ≠ dest ++ p' :=
              fun p' hp' e => hqL (by rw [List.append_cancel_left e]; exact hp')
            rcases Option.eq_none_or_eq_some (f0.get (dest ++ q)) with h4 | ⟨z, h4⟩
            · rcases h.new _ (hnd q) hx h4 with h5 | ⟨h5, _⟩
              · rw [h2] at h5; cases h5
              · rw [isDir_iff_false h2] at h5; cases h5
            · rw [h.keeps _ (hnd q) hx _ h4] at h2
              rw [h4, h2]
          have := hpl.back p hpL t m' (by rw [hqe]; exact h3)
          rw [hqe] at this
          refine hqp (stat_of_linkDest h1 this.1 ?_ hst).symm
          intro t' m'' h4
          rw [hsrc1] at h4
          rcases h.src q with h5 | ⟨_, _, h5, _⟩
          · exact this.2 t' m'' (h5.symm.trans h4)
          · rw [h5] at h4; cases h4
        | file c' m' b' =>
          rw [FS.stat_nonlink (wf1.pathErr h1) h1 rfl] at hst
          simp only [Except.ok.injEq, Prod.mk.injEq] at hst
          exact ha.ne p q hst.1.symm
        | dir m' b' =>
          rw [FS.stat_nonlink (wf1.pathErr h1) h1 rfl] at hst
          simp only [Except.ok.injEq, Prod.mk.injEq] at hst
          exact ha.ne p q hst.1.symm

end

theorem Movable.sub {source dest : Path} {f0 : FS} {L L' : List Path} (h : Movable source dest f0 L) (hs : ∀ p ∈ L', p ∈ L) :
    Movable source dest f0 L' :=
  ⟨fun p hp => h.nolink p (hs p hp), fun p hp => h.dirs p (hs p hp), fun p hp => h.back p (hs p hp)⟩

theorem relPaths_some {fs : FS} (w : fs.WF) {source : Path} : ∀ {files : List Path} (acc : List Path),
    (∀ f ∈ files, ∃ n, fs.get (source ++ f) = some n ∧ n.isLink = false) → ∃ ps, relPaths fs source files acc = .ok ps
  | [], acc, _ => ⟨acc, rfl⟩
  | f :: files, acc, h => by
    obtain ⟨n, hn, hl⟩ := h f (by simp)
    unfold relPaths
    have hst := FS.stat_nonlink (w.pathErr hn) hn hl
    cases n with
    | link t m => cases hl
    | dir m b =>
      have : scanTree fs (source ++ f) = .ok ((fs.below (source ++ f)).map Prod.fst) := by
        unfold scanTree; rw [hst]; simp
      rw [this]
      exact relPaths_some w _ (fun g hg => h g (by simp [hg]))
    | file c m b =>
      have : scanTree fs (source ++ f) = .error .notDir := by
        unfold scanTree; rw [hst]
      rw [this]
      exact relPaths_some w _ (fun g hg => h g (by simp [hg]))

/-- `transfer_tree` of listed paths raises nothing if they are files and directories, the destinations are clean, and
a directory goes where nothing or a directory is. -/
theorem safe_transferTree {source dest : Path} {fl : List Path} {rm : Bool} {s : OS} (ha : Apart source dest) (w : s.fs.WF)
    (hsd : s.fs.isDir source = true) (hdd : s.fs.isDir dest = true)
    (hex : ∀ f ∈ fl, ∃ n, s.fs.get (source ++ f) = some n)
    (hc : ∀ p, Listed s.fs source (some fl) p → ∀ q, q <+: p → Clean s.fs (source ++ q) (dest ++ q))
    (hnl : ∀ p, Listed s.fs source (some fl) p → ∀ t m, s.fs.get (source ++ p) ≠ some (.link t m))
    (hdirs : ∀ p, Listed s.fs source (some fl) p → ∀ q, q <+: p → s.fs.isDir (source ++ q) = true →
      s.fs.get (dest ++ q) = none ∨ s.fs.isDir (dest ++ q) = true)
    (hback : ∀ p, Listed s.fs source (some fl) p → ∀ t m,
      s.fs.get (dest ++ (p ++ [p.getLastD []])) = some (.link t m) →
      FS.linkDest (dest ++ (p ++ [p.getLastD []])) t = source ++ (p ++ [p.getLastD []]) ∧
      ∀ t m, s.fs.get (source ++ (p ++ [p.getLastD []])) ≠ some (.link t m)) :
    Safe (transferTree source dest (some fl) [] rm) s := by
  have hgd : GoodPath dest := by
    obtain ⟨m, b, h⟩ := FS.isDir_iff.1 hdd
    exact w.goodPath h
  have hpe : s.fs.pathExists source = true := by
    obtain ⟨m, b, h⟩ := FS.isDir_iff.1 hsd
    unfold FS.pathExists
    rw [FS.stat_nonlink (w.pathErr h) h rfl]
  have hfl : ∀ f ∈ fl, ∃ n, s.fs.get (source ++ f) = some n ∧ n.isLink = false := by
    intro f hf
    obtain ⟨n, hn⟩ := hex f hf
    refine ⟨n, hn, ?_⟩
    cases n with
    | link t m =>
      exfalso
      refine hnl f ⟨⟨_, hn⟩, ?_, f, hf, List.prefix_refl _⟩ t m hn
      rintro rfl
      rw [List.append_nil] at hn
      rw [isDir_iff_false hn] at hsd; cases hsd
    | _ => rfl
  unfold transferTree Safe
  rw [wp_bind, wp_ask, hpe, if_pos rfl, wp_bind, wp_query]
  obtain ⟨ps, hps⟩ := relPaths_some w [] hfl
  have hlp : listPaths s.fs source (some fl) = .ok ps := hps
  refine ⟨?_, fun e he => by rw [hlp] at he; cases he⟩
  intro ps' hps'
  rw [hlp] at hps'
  cases hps'
  obtain ⟨h1, h2, h3⟩ := listPaths_ok w hsd (fun fl' h f hf => by cases h; exact hex f hf) hlp
  have hmem : ∀ p, p ∈ descending (ps.filter (fun p => decide (p ∉ ([] : List Path)))) ↔ p ∈ ps := by
    intro p
    rw [mem_descending, List.mem_filter]
    simp
  have hnd : (descending (ps.filter (fun p => decide (p ∉ ([] : List Path))))).Nodup := nodup_descending (h1.filter _)
  have hdesc : rm = true → ∀ {done : List Path} {x : Path} {rest : List Path},
      descending (ps.filter (fun p => decide (p ∉ ([] : List Path)))) = done ++ x :: rest → ∀ q, x <+: q → x ≠ q →
      (∃ n, s.fs.get (source ++ q) = some n) → q ∈ done := by
    intro _ done x rest hl q hq hne ⟨n, hn⟩
    have hx : x ∈ ps := (hmem x).1 (by rw [hl]; simp)
    suffices hqp : q ∈ ps from descending_below (h2 x hx).2.1 hl (by simpa using hqp) hq hne
    obtain ⟨_, hps2⟩ := relPaths_ok w hps List.nodup_nil
    have hxq : source ++ x ≠ source ++ q := fun e => hne (List.append_cancel_left e)
    rcases (hps2 x).1 hx with h4 | ⟨f, hf, (⟨h4, rfl⟩ | ⟨h4, h5, h6, _⟩)⟩
    · simp at h4
    · rw [w.isDir_prefix hn _ ((List.prefix_append_right_inj _).2 hq) hxq] at h4; cases h4
    · refine (hps2 q).2 (Or.inr ⟨f, hf, Or.inr ⟨h4, h5.trans hq, ?_, n, hn⟩⟩)
      rintro rfl
      exact hne (List.IsPrefix.eq_of_length hq (Nat.le_antisymm hq.length_le h5.length_le))
  generalize descending (ps.filter (fun p => decide (p ∉ ([] : List Path)))) = l at hmem hnd hdesc
  have hpl : Movable source dest s.fs l :=
    ⟨fun p hp => hnl p (h2 _ ((hmem _).1 hp)), fun p hp => hdirs p (h2 _ ((hmem _).1 hp)),
      fun p hp => hback p (h2 _ ((hmem _).1 hp))⟩
  have hin : ∀ {done : List Path} {x : Path} {rest : List Path}, l = done ++ x :: rest → ∀ p ∈ done ++ [x], p ∈ l := by
    intro done x rest hl p hp
    rw [hl]
    rcases List.mem_append.1 hp with h | h
    · exact List.mem_append_left _ h
    · rw [List.mem_singleton.1 h]; simp
  have hfresh : ∀ {done : List Path} {x : Path} {rest : List Path}, l = done ++ x :: rest → x ∉ done := by
    intro done x rest hl hxd
    rw [hl, List.nodup_append] at hnd
    exact hnd.2.2 x hxd x (by simp) rfl
  refine Safe.each (fun done (s' : OS) => Moved source dest rm s.fs done s'.fs) l (E := fun _ _ => True) ?_ ?_ ?_
  · intro done x rest hl s' hI
    have hx : x ∈ l := by rw [hl]; simp
    exact safe_transferOne ha w hgd hdd (h2 _ ((hmem _).1 hx)).2.1 hI
      (fun p hp => (h2 _ ((hmem _).1 (hin hl p (List.mem_append_left _ hp)))).1) (hfresh hl)
      (h2 _ ((hmem _).1 hx)).1 (hc x (h2 _ ((hmem _).1 hx))) (hpl.sub (hin hl)) (fun hr => hdesc hr hl)
  · intro done x rest hl s' hI
    have hx : x ∈ l := by rw [hl]; simp
    exact wp_mono (wp_transferOne ha w hgd hdd (h2 _ ((hmem _).1 hx)).2.1 hI
      (fun p hp => (h2 _ ((hmem _).1 (hin hl p (List.mem_append_left _ hp)))).1) (hfresh hl)
      (h2 _ ((hmem _).1 hx)).1 (hc x (h2 _ ((hmem _).1 hx)))) (fun _ _ h => h) (fun _ _ _ => trivial)
  · exact { Moving.refl source dest rm w with
      copied := by intro p hp; simp at hp
      gone := by intro _ p hp; simp at hp }

/-! ### Linking -/

theorem safe_linkOne {src dest : Path} {dirs : List Path} {p : Path} {s : OS} (hpe : s.fs.pathErr (dest ++ p) = none) :
    Safe (linkOne src dest dirs false p) s := by
  have key : ∀ {n : Node} {e : Err}, s.fs.create (dest ++ p) n = .error e → e = .exists_ := by
    intro n e h
    rcases Option.eq_none_or_eq_some (s.fs.get (dest ++ p)) with h1 | ⟨x, h1⟩
    · rw [FS.create_isSome hpe h1] at h; cases h
    · unfold FS.create at h
      rw [FS.lstat_ok_iff.2 ⟨hpe, h1⟩] at h
      cases h; rfl
  unfold linkOne Safe
  split
  · unfold linkDir
    rw [wp_tryCatch, wp_bind]
    refine wp_op (by simp) (fun _ _ => trivial) (fun e he => ?_)
    have := key he
    subst this
    rw [if_neg (by decide), if_pos rfl]
    trivial
  · unfold linkNew
    rw [wp_tryCatch, wp_bind]
    refine wp_op (by simp) (fun _ _ => trivial) (fun e he => ?_)
    have := key he
    subst this
    rw [if_neg (by decide), if_pos rfl]
    trivial

theorem safe_linkLoop {src dest : Path} {dirs : List Path} (hgd : GoodPath dest) : ∀ {ps : List Path} {s : OS},
    s.fs.WF → s.fs.isDir dest = true → (∀ p ∈ ps, p ≠ [] ∧ GoodPath p) →
    ps.Pairwise (fun a b => a.length ≤ b.length) →
    (∀ p ∈ ps, ∀ q, q <+: p → q ≠ p → q ≠ [] → s.fs.isDir (dest ++ q) = true ∨
      (q ∈ ps ∧ q ∈ dirs ∧ s.fs.get (dest ++ q) = none)) →
    Safe (linkLoop src dest dirs false ps) s
  | [], s, _, _, _, _, _ => by rw [linkLoop]; trivial
  | p :: ps, s, wf, hd, hg, hs, hq => by
    rw [List.pairwise_cons] at hs
    have hp := hg p (by simp)
    have hpe : s.fs.pathErr (dest ++ p) = none := by
      refine pathErr_of_parent wf (by simp [hp.1]) ?_
      rw [List.dropLast_append_of_ne_nil hp.1]
      by_cases h0 : p.dropLast = []
      · rw [h0, List.append_nil]; exact hd
      · rcases hq p (by simp) p.dropLast (List.dropLast_prefix _) (FS.dropLast_proper hp.1).2 h0 with h1 | ⟨h1, _⟩
        · exact h1
        · exfalso
          have hl : p.dropLast.length < p.length := by
            have := List.length_pos_iff.2 hp.1
            simp; omega
          rcases List.mem_cons.1 h1 with h2 | h2
          · rw [h2] at hl; omega
          · have := hs.1 _ h2
            omega
    have hgp : GoodPath (dest ++ p) := goodPath_append.2 ⟨hgd, hp.2⟩
    have hp0 : dest ++ p ≠ [] := by simp [hp.1]
    rw [linkLoop]
    refine Safe.bind (safe_linkOne hpe) (wp_linkOne src dest dirs false p s) ?_
    intro o s1 h1
    refine Safe.then ?_ (fun _ _ => Safe.pure _)
    generalize he : s1.fs = f1 at h1
    have next : f1.WF ∧ (∀ q n, s.fs.get q = some n → f1.get q = some n) ∧
        (∀ q, q ≠ dest ++ p → f1.get q = s.fs.get q) ∧
        (p ∈ dirs → s.fs.get (dest ++ p) = none → f1.isDir (dest ++ p) = true) := by
      cases h1 with
      | make now h2 h3 =>
        refine ⟨?_, ?_, fun q hq => FS.get_set_ne _ hq _, ?_⟩
        · exact wf.create hgp (FS.create_isSome h3 h2)
        · intro q n hn
          rw [FS.get_set_ne _ (fun e => by rw [e, h2] at hn; cases hn)]
          exact hn
        · intro hpd _
          unfold linkNode
          rw [if_pos hpd]
          exact FS.isDir_iff.2 ⟨_, _, FS.get_set_self _ hp0 _⟩
      | keep n h2 h3 =>
        exact ⟨wf, fun _ _ h => h, fun _ _ => rfl, fun _ h => by rw [h2] at h; cases h⟩
      | replace n now h2 => cases h2
    obtain ⟨wf1, keep, other, made⟩ := next
    have kdir : ∀ q, s.fs.isDir q = true → f1.isDir q = true := by
      intro q h
      obtain ⟨m, b, h⟩ := FS.isDir_iff.1 h
      exact FS.isDir_iff.2 ⟨m, b, keep _ _ h⟩
    refine safe_linkLoop hgd (by rw [he]; exact wf1) (by rw [he]; exact kdir _ hd) (fun x hx => hg x (by simp [hx])) hs.2 ?_
    intro x hx q hqx hne h0
    rw [he]
    rcases hq x (by simp [hx]) q hqx hne h0 with h2 | ⟨h2, h3, h4⟩
    · exact Or.inl (kdir _ h2)
    · by_cases hqp : q = p
      · subst hqp; exact Or.inl (made h3 h4)
      · refine Or.inr ⟨(List.mem_cons.1 h2).resolve_left hqp, h3, ?_⟩
        rw [other _ (fun e => hqp (List.append_cancel_left e))]
        exact h4

theorem sortDepth_sorted (l : List Path) : (DB.sortDepth id l).Pairwise (fun a b => a.length ≤ b.length) := by
  unfold DB.sortDepth
  refine (sortBy_sorted ?_ ?_ l).imp ?_
  · intro a b c h1 h2
    simp only [id_eq, decide_eq_true_eq] at *
    omega
  · intro a b
    simp only [id_eq, decide_eq_true_eq]
    omega
  · intro a b h
    simpa using h

/-- `symlink_tree` raises nothing if what is above a listed path is a directory in the destination or a listed
directory that is missing there. -/
theorem safe_symlinkTree {src dest : Path} {files dirs : List Path} {s : OS} (wf : s.fs.WF)
    (hd : s.fs.isDir dest = true) (hg : ∀ p, p ∈ dirs ∨ p ∈ files → p ≠ [] ∧ GoodPath p)
    (hq : ∀ p, p ∈ dirs ∨ p ∈ files → ∀ q, q <+: p → q ≠ p → q ≠ [] → s.fs.isDir (dest ++ q) = true ∨
      (q ∈ dirs ∧ s.fs.get (dest ++ q) = none)) :
    Safe (symlinkTree src dest files dirs false) s := by
  obtain ⟨m, b, hgd⟩ := FS.isDir_iff.1 hd
  unfold symlinkTree
  refine Safe.bind (safe_makedirs wf hd) (wp_makedirs_dir wf hgd) ?_
  intro _ s1 h1
  refine safe_linkLoop (wf.goodPath hgd) (by rw [h1]; exact wf) (by rw [h1]; exact hd) ?_ (sortDepth_sorted _) ?_
  · intro p hp
    rw [mem_sortDepth, mem_foldl_setAdd] at hp
    exact hg p hp
  · intro p hp q h2 h3 h4
    rw [mem_sortDepth, mem_foldl_setAdd] at hp
    rw [mem_sortDepth, mem_foldl_setAdd, h1]
    rcases hq p hp q h2 h3 h4 with h5 | ⟨h5, h6⟩
    · exact Or.inl h5
    · exact Or.inr ⟨Or.inl h5, h5, h6⟩

/-! ### Removing -/

/-- Where nothing but directories is above a path, removing it raises nothing. -/
theorem safe_rmOne {parent p : Path} {s : OS} (w : s.fs.WF) (hp : parent ++ p ≠ [])
    (hpe : s.fs.pathErr (parent ++ p) = none ∨ s.fs.pathErr (parent ++ p) = some .notFound) :
    Safe (rmOne parent p) s := by
  rcases hpe with hpe | hpe
  · refine Safe.of (Q := fun _ _ => True) (wp_mono (wp_rmAny hp w) (fun _ _ _ => trivial) ?_)
    rintro e s' ⟨_, h | ⟨_, h⟩⟩
    · exact h
    · have := FS.pathErr_none_iff.1 hpe _ (FS.dropLast_proper hp).1 (FS.dropLast_proper hp).2
      rw [h] at this; cases this
  · unfold rmOne Safe
    rw [wp_tryCatch]
    have key : s.fs.remove (parent ++ p) = .error .notFound := by
      unfold FS.remove FS.lstat; rw [hpe]
    refine wp_op (by simp) (fun _ _ => trivial) (fun e he => ?_)
    have := he.symm.trans key
    cases this
    rw [if_neg (by decide)]
    trivial

/-- What the stale loop does with a path that exists. -/
theorem safe_staleOne {env : Env} {p : Path} {s : OS} (w : s.fs.WF) (h : ∃ n, s.fs.get (env.loc ++ p) = some n) :
    Safe (staleOne env p) s := by
  obtain ⟨n, hn⟩ := h
  unfold staleOne Safe
  rw [wp_bind, wp_ask]
  split
  · trivial
  · rw [wp_tryCatch]
    refine wp_op (by simp) (fun _ _ => trivial) (fun e he => ?_)
    unfold FS.remove at he
    rw [w.lstat_iff.2 hn] at he
    cases n with
    | dir m b =>
      cases he
      rw [if_neg (by decide)]
      show wp (Prog.tryCatch (rmdir _) _) _ _ _
      rw [wp_tryCatch]
      refine wp_op (by simp) (fun _ _ => trivial) (fun e he => ?_)
      split
      · assumption
      · trivial
    | file => cases he
    | link => cases he

end Verif
