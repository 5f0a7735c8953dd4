import Verif.Setup
import Verif.Spec.Agree
/-
The state in which an initialisation leaves a profile.
-/
namespace Verif
open Prog OSM Call FSTools WM

/-- After `_setup_dir` and the last steps of an initialisation the profile is at rest. -/
theorem atRest_of_setup {env : Env} {w3 w4 w' : World} {un : List Path} (wf : w3.os.fs.WF)
    (ap : Apart env.loc env.rem) (hf : SetupFrame env w3.os.fs w4.os.fs)
    (hlink : ∀ p n, UserPath p → w3.os.fs.get (env.rem ++ p) = some n → n.isDir = false →
      (p ∉ un → ∃ m, w4.os.fs.get (env.loc ++ p) = some (.link (absStr (env.rem ++ p)) m)) ∧
      (p ∈ un → w4.os.fs.get (env.loc ++ p) = w3.os.fs.get (env.loc ++ p)))
    (hsr : SetupRows env w3.os.fs un w3 w4) (hr1 : ∀ e ∈ w3.rdb, e.directory = w3.os.fs.isDir (env.rem ++ e.path)) (hr2 : (ADB.paths w3.rdb).Nodup)
    (hr3 : ∀ p ∈ ADB.paths w3.rdb, UserPath p ∧ ∃ n, w3.os.fs.get (env.rem ++ p) = some n)
    (hun : ∀ p ∈ un, UserPath p → ∀ n, w3.os.fs.get (env.rem ++ p) = some n → n.isDir = true)
    (hdirs : ∀ p, UserPath p → w3.os.fs.isDir (env.rem ++ p) = true → ∀ n, w3.os.fs.get (env.loc ++ p) = some n →
      n.isDir = true)
    (ho : OnlyAt (env.exclDir ++ [env.id]) w4.os.fs w'.os.fs) (wf' : w'.os.fs.WF) (db : w'.db = w4.db)
    (rdb : w'.rdb = w4.rdb) (s1 : w'.dbSaved = w'.db) (s2 : w'.rdbSaved = w'.rdb) (s3 : w'.lastSaved = w'.last) :
    AtRest env w' := by
  have remE : ∀ p, UserPath p → w'.os.fs.get (env.rem ++ p) = w3.os.fs.get (env.rem ++ p) := by
    intro p hu
    rw [ho, hf.other]
    · intro p' _ he
      exact absurd he.symm (ap.ne _ _)
    · intro he
      refine (hu.not_prefix env (q := ["exclude".toList] ++ [env.id])) ?_
      rw [he]
      unfold Env.exclDir
      rw [List.append_assoc]
      exact List.prefix_refl _
  have locE : ∀ p, w'.os.fs.get (env.loc ++ p) = w4.os.fs.get (env.loc ++ p) := by
    intro p
    refine ho _ ?_
    intro he
    unfold Env.exclDir Env.util at he
    rw [List.append_assoc, List.append_assoc] at he
    exact ap.ne _ _ he
  have hdb : ∀ p, p ∈ ADB.paths w4.db ↔ UserPath p ∧ ∃ n, w3.os.fs.get (env.rem ++ p) = some n := by
    intro p
    rw [hsr.db]
    constructor
    · rintro ⟨h1, n, h2, _⟩; exact ⟨h1, n, h2⟩
    · rintro ⟨h1, n, h2⟩
      refine ⟨h1, n, h2, ?_⟩
      intro h3 h4
      rw [hun p h4 h1 n h2] at h3; cases h3
  have r1 : ∀ p, p ∈ ADB.paths w4.rdb ↔ p ∈ ADB.paths w4.db := by
    intro p
    rw [hsr.rdb]
    exact ⟨fun h => h.elim (fun h => (hdb p).2 (hr3 p h)) id, Or.inr⟩
  have r2 := hsr.kind_rdb hr1
  have r3 := hsr.nodup hr2
  refine ⟨⟨?_, ?_, ?_, ?_, s1, s2, s3⟩, wf', ?_, ?_, ?_, ?_⟩
  · intro p; rw [db, rdb, r1]
  · intro p hp
    rw [rdb, r1, hdb] at hp
    exact hp.1
  · intro p hu
    rw [rdb, r1, hdb, remE p hu]
    exact ⟨fun h => h.2, fun h => ⟨hu, h⟩⟩
  · intro p n hu hn
    rw [remE p hu] at hn
    refine ⟨?_, ?_⟩
    · intro hd
      rw [FS.isDir_congr (locE p)]
      have hd' : w3.os.fs.isDir (env.rem ++ p) = true := by rw [isDir_iff_false hn]; exact hd
      exact hsr.dirs p hu hd' (hdirs p hu hd')
    · intro hd
      have hx : p ∉ un := fun h => by rw [hun p h hu n hn] at hd; cases hd
      obtain ⟨m, hm⟩ := (hlink p n hu hn hd).1 hx
      rw [locE]
      exact Or.inr ⟨_, m, hm, Or.inl (FS.linkDest_abs (wf.goodPath hn) _)⟩
  · intro e he n hn
    rw [db] at he
    have hu := ((hdb _).1 (List.mem_map.2 ⟨e, he, rfl⟩)).1
    rw [remE _ hu] at hn
    rw [hsr.kind e he, isDir_iff_false hn]
  · intro e he n hn
    rw [rdb] at he
    have hu := ((hdb _).1 ((r1 _).1 (List.mem_map.2 ⟨e, he, rfl⟩))).1
    rw [remE _ hu] at hn
    rw [r2 e he, isDir_iff_false hn]
  · rw [db]; exact hsr.nodup_db
  · rw [rdb]; exact r3

end Verif
