import Verif.Spec.Orderly
import Verif.ExampleSync
/-
A check of the hypothesis that a state is orderly, in concrete cases.
-/
namespace Verif

/-- The local entries, with their paths. -/
def localEntries (env : Env) (fs : FS) : List (Path × Node) :=
  fs.filterMap fun e => if env.loc.isPrefixOf e.1 then some (e.1.drop env.loc.length, e.2) else none

def remoteEntries (env : Env) (fs : FS) : List (Path × Node) :=
  fs.filterMap fun e => if env.rem.isPrefixOf e.1 then some (e.1.drop env.rem.length, e.2) else none

theorem mem_localEntries {env : Env} {fs : FS} (hl : env.loc ≠ []) {p : Path} {n : Node}
    (h : fs.get (env.loc ++ p) = some n) : (p, n) ∈ localEntries env fs := by
  refine List.mem_filterMap.2 ⟨_, FS.mem_of_get (by simp [hl]) h, ?_⟩
  rw [if_pos (List.isPrefixOf_iff_prefix.2 (List.prefix_append _ _))]
  simp

theorem mem_remoteEntries {env : Env} {fs : FS} (hl : env.rem ≠ []) {p : Path} {n : Node}
    (h : fs.get (env.rem ++ p) = some n) : (p, n) ∈ remoteEntries env fs := by
  refine List.mem_filterMap.2 ⟨_, FS.mem_of_get (by simp [hl]) h, ?_⟩
  rw [if_pos (List.isPrefixOf_iff_prefix.2 (List.prefix_append _ _))]
  simp

/-- The paths that are gone. -/
def goneL (env : Env) (w : World) : List Path :=
  (ADB.paths w.db).filter fun p => (w.os.fs.get (env.loc ++ p)).isNone

def goneR (env : Env) (w : World) : List Path :=
  (ADB.paths w.db).filter fun p => (w.os.fs.get (env.rem ++ p)).isNone

theorem mem_goneL {env : Env} {w : World} {p : Path} (h : GoneLocally env w p) : p ∈ goneL env w :=
  List.mem_filter.2 ⟨h.1, by rw [h.2]; rfl⟩

theorem mem_goneR {env : Env} {w : World} {p : Path} (h : GoneRemotely env w p) : p ∈ goneR env w :=
  List.mem_filter.2 ⟨h.1, by rw [h.2]; rfl⟩

/-- More than the paths that have changed. -/
def chL (env : Env) (w : World) : List Path :=
  ((localEntries env w.os.fs).filter fun e => decide (e.1 ≠ []) && (decide (e.1 ∉ ADB.paths w.db) ||
    (!e.2.isDir && decide (w.last < e.2.mtime)))).map Prod.fst

def chR (env : Env) (w : World) : List Path :=
  ((remoteEntries env w.os.fs).filter fun e => decide (UserPath e.1) && (decide (e.1 ∉ ADB.paths w.db) ||
    (!e.2.isDir && decide (w.last < e.2.mtime)))).map Prod.fst ++
  (w.rdb.filter fun e => decide (w.last < e.data)).map Entry.path

theorem mem_chL {env : Env} {w : World} (hl : env.loc ≠ []) {p : Path} (h : ChangedLocally env w p) : p ∈ chL env w := by
  obtain ⟨h0, n, h1, _, h2⟩ := h
  refine List.mem_map.2 ⟨(p, n), List.mem_filter.2 ⟨mem_localEntries hl h1, ?_⟩, rfl⟩
  rcases h2 with ⟨h2, _⟩ | ⟨h2, h3, h4⟩
  · simp [h0, h2]
  · simp [h0, h3, h4]

theorem mem_chR {env : Env} {w : World} (hl : env.rem ≠ []) {p : Path} (h : ChangedRemotely env w p) : p ∈ chR env w := by
  rcases h with ⟨hu, n, h1, h2⟩ | ⟨e, h1, rfl, _, h2⟩
  · refine List.mem_append_left _ (List.mem_map.2 ⟨(p, n), List.mem_filter.2 ⟨mem_remoteEntries hl h1, ?_⟩, rfl⟩)
    rcases h2 with h2 | ⟨h2, h3⟩
    · simp [hu, h2]
    · simp [hu, h2, h3]
  · exact List.mem_append_right _ (List.mem_map.2 ⟨e, List.mem_filter.2 ⟨h1, by simp [h2]⟩, rfl⟩)

/-- A test that implies `Calm`. The function `clear` tells of some paths that they are not excluded. -/
def calmB (env : Env) (clear : Path → Bool) (w : World) : Bool :=
  (ADB.paths w.db).all (fun p => (List.range (p.length + 1)).all fun k =>
    (p.take k).isEmpty || decide (p.take k ∈ ADB.paths w.db)) &&
  (ADB.paths w.db).all (fun p => decide (p ∈ ADB.paths w.rdb) || ((w.os.fs.get (env.rem ++ p)).isNone && clear p)) &&
  (ADB.paths w.rdb).all (fun p => decide (p ∈ ADB.paths w.db) || (w.os.fs.get (env.rem ++ p)).isSome) &&
  (chL env w).all (fun f => (localEntries env w.os.fs).all fun e => !f.isPrefixOf e.1 || decide (f = e.1) ||
    (clear e.1 && !e.2.isLink))

theorem calm_of_calmB {env : Env} {clear : Path → Bool} {w : World} (hl : env.loc ≠ [])
    (hc : ∀ p, clear p = true → ¬ OwnExcludes env w.os.fs p) (h : calmB env clear w = true) : Calm env w := by
  simp only [calmB, Bool.and_eq_true, List.all_eq_true] at h
  obtain ⟨⟨⟨h1, h2⟩, h3⟩, h4⟩ := h
  refine ⟨?_, ?_, ?_, ?_⟩
  · intro p hp q hq hq0
    have := h1 p hp q.length (List.mem_range.2 (Nat.lt_succ_of_le hq.length_le))
    have e : p.take q.length = q := by obtain ⟨t, rfl⟩ := hq; simp
    rw [e] at this
    simpa [hq0] using this
  · intro p hp
    have := h2 p hp
    simp only [Bool.or_eq_true, decide_eq_true_eq, Bool.and_eq_true, Option.isNone_iff_eq_none] at this
    rcases this with h | ⟨h, h'⟩
    · exact Or.inl h
    · exact Or.inr ⟨h, hc p h'⟩
  · intro p hp
    have := h3 p hp
    simpa [Option.isSome_iff_exists] using this
  · intro f hf q n hq hne hn
    have := h4 f (mem_chL hl hf) _ (mem_localEntries hl hn)
    simp only [Bool.or_eq_true, Bool.not_eq_true', decide_eq_true_eq, Bool.and_eq_true] at this
    rcases this with (h | h) | ⟨h, h'⟩
    · rw [List.isPrefixOf_iff_prefix.2 hq] at h; cases h
    · exact absurd h hne
    · refine ⟨hc q h, ?_⟩
      rintro ⟨t, m, rfl, _⟩
      cases h'

/-- A test that implies `Orderly`. -/
def orderlyB (env : Env) (clear : Path → Bool) (w : World) : Bool :=
  calmB env clear w && w.os.fs.isDir env.exclDir &&
  w.os.fs.all (fun e => !decide (e.1.dropLast = env.exclDir) || match e.2 with | .file .. => true | _ => false) &&
  (w.os.fs.get env.trash).all Node.isDir &&
  (localEntries env w.os.fs).all (fun e => match e.2 with
    | .link t _ => decide (t = absStr (env.rem ++ e.1)) && (w.os.fs.get (env.rem ++ e.1)).isSome
    | _ => true) &&
  (remoteEntries env w.os.fs).all (fun e => !decide (UserPath e.1) || !e.2.isLink) &&
  (goneL env w).all (fun p => decide (p ∈ ADB.paths w.rdb)) &&
  (goneR env w).all clear &&
  (!env.inflate || w.db.any (fun e => !e.directory && decide (e.path ∉ chL env w) &&
    (w.os.fs.get (env.loc ++ e.path)).isSome && (w.os.fs.get (env.rem ++ e.path)).isSome)) &&
  (chL env w).all (fun f => (goneR env w).all fun d => !d.isPrefixOf f) &&
  (chR env w).all (fun f => (w.os.fs.get (env.rem ++ f)).isSome && (goneL env w).all fun d => !d.isPrefixOf f) &&
  (chL env w).all (fun f => !w.os.fs.isDir (env.loc ++ f) || (w.os.fs.get (env.rem ++ f)).isSome ||
    (chL env w).any fun q => f.isPrefixOf q && (w.os.fs.get (env.loc ++ q)).any fun n => !n.isDir) &&
  (chL env w).all (fun p => !decide (p ∈ chR env w) || match w.os.fs.get (env.loc ++ p), w.os.fs.get (env.rem ++ p) with
    | some a, some b => a.isDir || decide (b.mtime ≤ a.mtime)
    | _, _ => true) &&
  (goneL env w).all (fun p => (w.os.fs.get (env.trash ++ [trashCand (p.getLastD []) 0])).isNone &&
    (goneL env w).all fun q => decide (p = q) ||
      !decide (trashCand (p.getLastD []) 0 = trashCand (q.getLastD []) 0)) &&
  (env.cleanup.isNone || w.os.fs.all (fun e => !decide (e.1.dropLast = env.trash) || !e.2.isLink))

theorem orderly_of_orderlyB {env : Env} {clear : Path → Bool} {w : World} (hl : env.loc ≠ []) (hr : env.rem ≠ [])
    (hc : ∀ p, clear p = true → ¬ OwnExcludes env w.os.fs p) (h : orderlyB env clear w = true) : Orderly env w := by
  simp only [orderlyB, Bool.and_eq_true, List.all_eq_true] at h
  obtain ⟨⟨⟨⟨⟨⟨⟨⟨⟨⟨⟨⟨⟨⟨h1, h2⟩, h3⟩, h4⟩, h5⟩, h6⟩, h7⟩, h8⟩, h9⟩, h10⟩, h11⟩, h12⟩, h13⟩, h14⟩, h15⟩ := h
  have link : ∀ p t m, w.os.fs.get (env.loc ++ p) = some (.link t m) →
      t = absStr (env.rem ++ p) ∧ ∃ n, w.os.fs.get (env.rem ++ p) = some n := by
    intro p t m h
    have := h5 _ (mem_localEntries hl h)
    simpa [Option.isSome_iff_exists] using this
  refine ⟨calm_of_calmB hl hc h1, h2, ?_, ?_, ?_, ?_, ?_, ?_, ?_, ?_, ?_, ?_, ?_, ?_, ?_, ?_⟩
  · intro c n hn
    have := h3 _ (FS.mem_of_get (by simp) hn)
    rw [List.dropLast_concat] at this
    cases n <;> simp at this ⊢
  · intro n hn
    rw [hn] at h4; exact h4
  · intro p t m _ h
    exact (link p t m h).1
  · intro p n hu hn
    have := h6 _ (mem_remoteEntries hr hn)
    simpa [hu] using this
  · intro p t m _ h
    exact Or.inl (link p t m h).2
  · intro p hp
    simpa using h7 p (mem_goneL hp)
  · intro p hp
    exact hc p (h8 p (mem_goneR hp))
  · intro hi
    rw [hi] at h9
    simp only [Bool.not_true, Bool.false_or, List.any_eq_true, Bool.and_eq_true, Bool.not_eq_true',
      decide_eq_true_eq, Option.isSome_iff_exists] at h9
    obtain ⟨e, he, ⟨⟨h, h'⟩, h''⟩, h'''⟩ := h9
    exact ⟨e, he, h, fun hcl => h' (mem_chL hl hcl), h'', h'''⟩
  · intro f d hf hd hpre
    have := h10 f (mem_chL hl hf) d (mem_goneR hd)
    rw [List.isPrefixOf_iff_prefix.2 hpre] at this; cases this
  · intro f hf
    obtain ⟨h, h'⟩ := h11 f (mem_chR hr hf)
    refine ⟨Option.isSome_iff_exists.1 h, fun d hd hpre => ?_⟩
    have := h' d (mem_goneL hd)
    rw [List.isPrefixOf_iff_prefix.2 hpre] at this; cases this
  · intro f hf hd
    have := h12 f (mem_chL hl hf)
    rw [hd] at this
    simp only [Bool.not_true, Bool.false_or, Bool.or_eq_true, List.any_eq_true, Bool.and_eq_true,
      Option.isSome_iff_exists, Option.any_eq_true] at this
    rcases this with h | ⟨q, _, h, n, h', h''⟩
    · exact Or.inl h
    · exact Or.inr ⟨q, n, List.isPrefixOf_iff_prefix.1 h, h', by simpa using h''⟩
  · intro p a b hcl hcr ha hb hd hlt
    have := h13 p (mem_chL hl hcl)
    rw [ha, hb] at this
    simp only [mem_chR hr hcr, decide_true, Bool.not_true, Bool.false_or, hd, decide_eq_true_eq] at this
    omega
  · intro p q hp hq hpq _ t ht ht'
    have key : ∀ p t, GoneLocally env w p → TrashTarget env w.os.fs p t → t = trashCand (p.getLastD []) 0 := by
      rintro p t hp ⟨k, rfl, _, h⟩
      cases k with
      | zero => rfl
      | succ k => exact absurd (Option.isNone_iff_eq_none.1 (h14 p (mem_goneL hp)).1) (h 0 (Nat.succ_pos _))
    have := (h14 p (mem_goneL hp)).2 q (mem_goneL hq)
    rw [← key p t hp ht, ← key q t hq ht'] at this
    simp only [decide_true, Bool.not_true, Bool.or_false, decide_eq_true_eq] at this
    subst this
    exact hpq (List.prefix_refl _)
  · intro hcl c n hn
    simp only [Bool.or_eq_true, Option.isNone_iff_eq_none, hcl, false_or, List.all_eq_true] at h15
    have := h15 _ (FS.mem_of_get (by simp) hn)
    rw [List.dropLast_concat] at this
    simpa using this

end Verif
