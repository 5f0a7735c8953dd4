import Verif.SyncAgree
import Verif.Props.SyncEffects
/-
What a successful sync leaves in the local directory: everything there is known, excluded or an unsafe link.
-/
namespace Verif
open Prog OSM Call FSTools WM

theorem ownExcludes_end {env : Env} {fs fs' : FS} (wf : fs.WF) (wf' : fs'.WF) {c : Nat} {m : Int} {b : Nat}
    (h : fs.get env.excl = some (.file c m b)) (h' : fs'.get env.excl = some (.file c m b)) {q p : Path}
    (hq : OwnExcludes env fs q) (hqp : q <+: p) (hp : ∃ n, fs'.get (env.loc ++ p) = some n) : OwnExcludes env fs' p := by
  obtain ⟨a, k, m', b', h1, h2, _, x, h4, h5, h6⟩ := hq
  rw [stat_file wf h] at h1
  cases h1
  refine ⟨_, c, m, b, stat_file wf' h', ?_, hp, x, h4, h5.trans hqp, h6⟩
  rintro rfl
  exact h2 (List.prefix_nil.1 hqp)

/-- Everything in the local directory is known, excluded or an unsafe link. -/
theorem known_of_done {env : Env} {w w' : World} (r : SyncReady env w) (c : Calm env w) (h : SyncDone env w w')
    (hexcl : ∃ k m b, w.os.fs.get env.excl = some (.file k m b) ∧ w'.os.fs.get env.excl = some (.file k m b)) :
    w'.os.fs.WF ∧ ∀ p n, p ≠ [] → w'.os.fs.get (env.loc ++ p) = some n →
      p ∈ ADB.paths w'.db ∨ UnsafeLink env.loc p n ∨ OwnExcludes env w'.os.fs p := by
  obtain ⟨del, new, mod, w1, w2, upd, w3, cp, DL, DR, l, w4, sel, rex, w5, w6, S, T, D⟩ := h
  obtain ⟨ek, em, eb, he, he'⟩ := hexcl
  obtain ⟨x, y, hw5⟩ := T.same
  have fs5 : w5.os.fs = w4.os.fs := by rw [hw5]
  have db5 : w5.db = w4.db := by rw [hw5]
  have rdb5 : w5.rdb = w4.rdb := by rw [hw5]
  have db6 : ∀ p, p ∈ ADB.paths w6.db ↔ p ∈ ADB.paths w4.db := by
    intro p
    obtain ⟨ps, h, _⟩ := D.db
    rw [h, paths_markLocal, db5]
  have trashL : ∀ p, ¬ env.trash <+: env.loc ++ p := fun p h => loc_not_trash r.apart h rfl
  have locE : ∀ p, w'.os.fs.get (env.loc ++ p) = w6.os.fs.get (env.loc ++ p) := by
    intro p
    refine D.ended.keeps.keeps _ ?_
    rintro (⟨q, _, t, e⟩ | h)
    · rw [List.append_assoc] at e
      exact r.apart.symm.ne _ _ e
    · exact trashL p h
  have wf' : w'.os.fs.WF := D.ended.keeps.wf D.kept.wf
  refine ⟨wf', ?_⟩
  intro p n hp0 hn
  have own : ∀ q, OwnExcludes env w.os.fs q → q <+: p → OwnExcludes env w'.os.fs p :=
    fun q hq hqp => ownExcludes_end r.wf wf' he he' hq hqp ⟨n, hn⟩
  have fin : p ∈ ADB.paths w4.db → p ∈ ADB.paths w'.db ∨ UnsafeLink env.loc p n ∨ OwnExcludes env w'.os.fs p := by
    intro h4
    by_cases hd : ∀ q, ToDrop env w6 rex q → ¬ q <+: p
    · exact Or.inl ((D.ended.db p).2 ⟨(db6 p).2 h4, hd⟩)
    · obtain ⟨q, h1, h2⟩ : ∃ q, ToDrop env w6 rex q ∧ q <+: p := by
        apply Classical.byContradiction
        intro hc
        exact hd (fun q h1 h2 => hc ⟨q, h1, h2⟩)
      exact Or.inr (Or.inr (own q (T.rexOwn q h1.1) h2))
  obtain ⟨A, B, k, _⟩ := S.cl.clearing
  have less : Less env w.os.fs w2.os.fs := (S.sc.start.less r).trans k.less
  have four : p ∈ ADB.paths w2.db → p ∈ ADB.paths w4.db := by
    intro h2
    rw [S.same4 c, S.ub.rdb, S.rb.rdb]
    exact Or.inl (Or.inl ((S.same2 c p).1 h2))
  rw [locE] at hn
  rcases D.done.made p n hn with ⟨n0, h5⟩ | h5 | ⟨q, ⟨⟨m, hm⟩, hq0, f, hf, hfq⟩, h5⟩
  · rw [fs5] at h5
    have h3 := h5
    rw [S.ub.moved.loc_eq] at h3
    rcases S.rb.eff.loc_some r.apart h3 with ⟨h2, _⟩ | ⟨z, hz, h2, _⟩
    · obtain ⟨n1, h1⟩ := k.locOld p n0 h2
      rw [S.sc.start.loc r] at h1
      have hu := r.local_user hp0 h1
      obtain ⟨n', h6, h6d, h7⟩ := less.1 p hu.plain n0 h2
      have known : p ∈ ADB.paths w1.db → p ∈ ADB.paths w'.db ∨ UnsafeLink env.loc p n ∨ OwnExcludes env w'.os.fs p :=
        fun h8 => fin (four (S.db_known r hu h8 (Or.inl ⟨n0, h2⟩)))
      by_cases hdb : p ∈ ADB.paths w.db
      · exact known ((S.sc.dbIff p).2 (Or.inl hdb))
      by_cases hex : OwnExcludes env w.os.fs p
      · exact Or.inr (Or.inr (own p hex (List.prefix_refl _)))
      by_cases hun : UnsafeLink env.loc p n'
      swap
      · exact known ((S.sc.dbIff p).2 (Or.inr (Or.inl ((S.sc.newLocIff p).2 ⟨hp0, n', h6, hdb, hun, hex⟩))))
      have hl : n'.isLink = true := by obtain ⟨t, m, rfl, _⟩ := hun; rfl
      have hne : n' = n0 := by
        apply h7
        rw [← h6d]; exact isDir_of_isLink hl
      subst hne
      rcases D.kept.loc p n' (by rw [fs5]; exact h5) with h8 | ⟨_, h8⟩ | ⟨⟨⟨m, h8⟩, _⟩, _⟩
      · rw [hn] at h8; cases h8
        exact Or.inr (Or.inl hun)
      · rw [hl] at h8; cases h8
      · rw [fs5] at h8
        exact fin (S.cover4 r c hu h8)
    · exact fin ((S.ub.db _).2 (Or.inr (Or.inl ((S.rb.loc _).2 ⟨hp0, Or.inr ⟨z, hz, h2⟩⟩))))
  · rw [rdb5] at h5
    exact fin ((S.same4 c p).2 h5)
  · rw [fs5] at hm
    have hfu : UserPath f := by
      rcases T.known f (mem_setOf.1 hf) with h1 | h1
      · obtain ⟨d, h2⟩ := S.up.db.path h1
        exact h2.user
      · obtain ⟨h2, n2, h3⟩ := ownExcludes_exists (T.rexOwn f h1)
        exact r.local_user h2 h3
    have hu : UserPath p := PlainPath.user ((PlainPath.extend hfu hfq).plain.prefix h5) hp0
    obtain ⟨m', h6⟩ : ∃ m', w4.os.fs.get (env.rem ++ p) = some m' := by
      by_cases hpq : p = q
      · subst hpq; exact ⟨m, hm⟩
      · obtain ⟨a, b, h7⟩ := FS.isDir_iff.1 (S.up.wf.isDir_prefix hm (env.rem ++ p)
          ((List.prefix_append_right_inj _).2 h5) (fun e => hpq (List.append_cancel_left e)))
        exact ⟨_, h7⟩
    exact fin (S.cover4 r c hu h6)

end Verif
