import Verif.Props.C16_C17_Changes
import Verif.Props.C05_C06_Aggregates
/-
C18: deletions are detected at their top-most path; trash is used for files
not kept locally.

`compute_deleted` raises `KeyError` when a file that the profile knows is
missing from the local directory and from the remote database, for instance
because another client synced the same deletion first. The theorems that say
what it returns are therefore `_partial`; `C18_raises_iff` says exactly when it
returns.
-/
namespace Verif

theorem dropSubs_isSome {subs : Path → List Path} {qs : List Path} :
    ∀ {del : List Path}, (dropSubs subs qs del).isSome = true ↔ ∀ q ∈ qs, q ∈ subs q := by
  induction qs with
  | nil => simp [dropSubs]
  | cons q qs ih =>
    intro del
    unfold dropSubs
    split
    · rename_i h
      rw [ih]; simp [h]
    · rename_i h
      simp [h]

theorem mem_dropSubs {subs : Path → List Path} {qs : List Path} :
    ∀ {del r : List Path}, dropSubs subs qs del = some r → ∀ p, p ∈ r ↔
      p ∈ del ∧ ∀ q ∈ qs, p ∈ subs q → p = q := by
  induction qs with
  | nil => intro del r h p; simp [dropSubs] at h; simp [h]
  | cons q qs ih =>
    intro del r h p
    unfold dropSubs at h
    split at h
    · rw [ih h, List.mem_filter, decide_eq_true_eq]
      simp only [List.mem_cons, forall_eq_or_imp]
      constructor
      · rintro ⟨⟨h1, h2⟩, h3⟩
        exact ⟨h1, fun hp => h2.resolve_left (fun h => h hp), h3⟩
      · rintro ⟨h1, h2, h3⟩
        refine ⟨⟨h1, ?_⟩, h3⟩
        by_cases hp : p ∈ subs q
        · exact Or.inr (h2 hp)
        · exact Or.inl hp
    · simp at h

theorem mem_paths_rows {δ : Type} {a : ADB δ} {q p : Path} :
    p ∈ ADB.paths (ADB.rows a q) ↔ p ∈ ADB.paths a ∧ q <+: p := by
  simp only [ADB.paths, ADB.rows, List.mem_map, List.mem_filter, List.isPrefixOf_iff_prefix]
  constructor
  · rintro ⟨e, ⟨h1, h2⟩, rfl⟩; exact ⟨⟨e, h1, rfl⟩, h2⟩
  · rintro ⟨⟨e, h1, rfl⟩, h2⟩; exact ⟨e, ⟨h1, h2⟩, rfl⟩

theorem computeDeleted_cases {lkeys rkeys : List Path} {db : ALocal} {rdb : ARemote} {tr : Bool}
    {r : DeletedPaths} (h : computeDeleted lkeys rkeys db rdb tr = some r) :
    (∀ p, p ∈ r.loc ↔ p ∈ ADB.paths db ∧ p ∉ rkeys ∧
      ∀ q ∈ ADB.paths db, q ∉ rkeys → q <+: p → p = q) ∧
    (∀ p, (p ∈ r.rem ∨ p ∈ r.trash) ↔ p ∈ ADB.paths db ∧ p ∉ lkeys ∧
      ∀ q ∈ ADB.paths db, q ∉ lkeys → q <+: p → p = q) ∧
    (∀ p, p ∈ r.rem → p ∉ r.trash) ∧
    (∀ p, p ∈ r.trash ↔ (p ∈ r.rem ∨ p ∈ r.trash) ∧ tr = true ∧
      p ∈ ADB.paths (ALocal.getPaths db [] none (some false))) := by
  simp only [computeDeleted, Option.bind_eq_bind, Option.bind_eq_some_iff, Option.pure_def,
    Option.some.injEq] at h
  obtain ⟨l, hl, m, hm, rfl⟩ := h
  have hself : ∀ q ∈ (ADB.paths db).filter (fun p => decide (p ∉ lkeys)),
      q ∈ ADB.paths (ADB.rows rdb q) :=
    (dropSubs_isSome (subs := fun q => ADB.paths (ADB.rows rdb q))).1 (by rw [hm]; rfl)
  have hml := mem_dropSubs hl
  have hmm := mem_dropSubs hm
  simp only [List.mem_filter, decide_eq_true_eq] at hself hml hmm
  have key : ∀ p, p ∈ m ↔ p ∈ ADB.paths db ∧ p ∉ lkeys ∧
      ∀ q ∈ ADB.paths db, q ∉ lkeys → q <+: p → p = q := by
    intro p
    rw [hmm]
    constructor
    · rintro ⟨⟨h1, h2⟩, h3⟩
      refine ⟨h1, h2, fun q hq hql hqp => h3 q ⟨hq, hql⟩ ?_⟩
      exact mem_paths_rows.2 ⟨(mem_paths_rows.1 (hself p ⟨h1, h2⟩)).1, hqp⟩
    · rintro ⟨h1, h2, h3⟩
      exact ⟨⟨h1, h2⟩, fun q hq hp => h3 q hq.1 hq.2 (mem_paths_rows.1 hp).2⟩
  have hu : ∀ p, (p ∈ m.filter (fun p => decide (p ∉ (if tr = true then m.filter (fun p =>
      decide (p ∈ ADB.paths (ALocal.getPaths db [] none (some false)))) else []))) ∨
      p ∈ (if tr = true then m.filter (fun p =>
      decide (p ∈ ADB.paths (ALocal.getPaths db [] none (some false)))) else [])) ↔ p ∈ m := by
    intro p
    rw [List.mem_filter, decide_eq_true_eq]
    constructor
    · rintro (h | h)
      · exact h.1
      · split at h
        · exact (List.mem_filter.1 h).1
        · simp at h
    · intro h
      by_cases hp : p ∈ (if tr = true then m.filter (fun p =>
        decide (p ∈ ADB.paths (ALocal.getPaths db [] none (some false)))) else [])
      · exact Or.inr hp
      · exact Or.inl ⟨h, hp⟩
  refine ⟨?_, ?_, ?_, ?_⟩
  · intro p
    rw [hml]
    constructor
    · rintro ⟨⟨h1, h2⟩, h3⟩
      exact ⟨h1, h2, fun q hq hql hqp => h3 q ⟨hq, hql⟩ (mem_paths_rows.2 ⟨h1, hqp⟩)⟩
    · rintro ⟨h1, h2, h3⟩
      exact ⟨⟨h1, h2⟩, fun q hq hp => h3 q hq.1 hq.2 (mem_paths_rows.1 hp).2⟩
  · intro p
    rw [hu, key]
  · intro p hp
    exact of_decide_eq_true (List.mem_filter.1 hp).2
  · intro p
    rw [hu]
    simp only
    cases tr with
    | false => simp
    | true => rw [if_pos rfl, List.mem_filter]; simp

/-- `compute_deleted` returns exactly when every known path that is missing
locally is in the remote database. -/
theorem C18_raises_iff (lkeys rkeys : List Path) (db : ALocal) (rdb : ARemote) (tr : Bool) :
    (computeDeleted lkeys rkeys db rdb tr).isSome = true ↔
      ∀ p ∈ ADB.paths db, p ∉ lkeys → p ∈ ADB.paths rdb := by
  have h1 : (dropSubs (fun q => ADB.paths (ADB.rows db q))
      ((ADB.paths db).filter (fun p => decide (p ∉ rkeys)))
      ((ADB.paths db).filter (fun p => decide (p ∉ rkeys)))).isSome = true := by
    rw [dropSubs_isSome]
    intro q hq
    exact mem_paths_rows.2 ⟨(List.mem_filter.1 hq).1, List.prefix_rfl⟩
  obtain ⟨l, hl⟩ := Option.isSome_iff_exists.1 h1
  have h2 := dropSubs_isSome (subs := fun q => ADB.paths (ADB.rows rdb q))
    (qs := (ADB.paths db).filter (fun p => decide (p ∉ lkeys)))
    (del := (ADB.paths db).filter (fun p => decide (p ∉ lkeys)))
  have h3 : (computeDeleted lkeys rkeys db rdb tr).isSome
      = (dropSubs (fun q => ADB.paths (ADB.rows rdb q))
        ((ADB.paths db).filter (fun p => decide (p ∉ lkeys)))
        ((ADB.paths db).filter (fun p => decide (p ∉ lkeys)))).isSome := by
    simp only [computeDeleted, hl, Option.bind_eq_bind, Option.bind_some]
    cases dropSubs (fun q => ADB.paths (ADB.rows rdb q))
      ((ADB.paths db).filter (fun p => decide (p ∉ lkeys)))
      ((ADB.paths db).filter (fun p => decide (p ∉ lkeys))) <;> rfl
  rw [h3, h2]
  constructor
  · intro h p hp hl
    exact (mem_paths_rows.1 (h p (List.mem_filter.2 ⟨hp, by simpa using hl⟩))).1
  · intro h p hp
    obtain ⟨hp, hl⟩ := List.mem_filter.1 hp
    exact mem_paths_rows.2 ⟨h p hp (by simpa using hl), List.prefix_rfl⟩

/-- Local paths to delete: known, gone from the remote directory, and no known
ancestor is gone. -/
theorem C18_local_partial {lkeys rkeys : List Path} {db : ALocal} {rdb : ARemote} {tr : Bool}
    {r : DeletedPaths} (h : computeDeleted lkeys rkeys db rdb tr = some r) (p : Path) :
    p ∈ r.loc ↔ p ∈ ADB.paths db ∧ p ∉ rkeys ∧
      ∀ q ∈ ADB.paths db, q <+: p → q ≠ p → q ∈ rkeys := by
  rw [(computeDeleted_cases h).1]
  refine and_congr_right (fun _ => and_congr_right (fun _ => ?_))
  constructor
  · intro h q hq hqp hne
    by_contra hc
    exact hne (h q hq hc hqp).symm
  · intro h q hq hc hqp
    by_contra hne
    exact hc (h q hq hqp (fun e => hne e.symm))

/-- Remote paths to delete or to trash: known, gone from the local directory,
and no known ancestor is gone. No path is in both sets. -/
theorem C18_remote_partial {lkeys rkeys : List Path} {db : ALocal} {rdb : ARemote} {tr : Bool}
    {r : DeletedPaths} (h : computeDeleted lkeys rkeys db rdb tr = some r) (p : Path) :
    ((p ∈ r.rem ∨ p ∈ r.trash) ↔ p ∈ ADB.paths db ∧ p ∉ lkeys ∧
      ∀ q ∈ ADB.paths db, q <+: p → q ≠ p → q ∈ lkeys) ∧ ¬ (p ∈ r.rem ∧ p ∈ r.trash) := by
  refine ⟨?_, fun h' => (computeDeleted_cases h).2.2.1 p h'.1 h'.2⟩
  rw [(computeDeleted_cases h).2.1]
  refine and_congr_right (fun _ => and_congr_right (fun _ => ?_))
  constructor
  · intro h q hq hqp hne
    by_contra hc
    exact hne (h q hq hc hqp).symm
  · intro h q hq hc hqp
    by_contra hne
    exact hc (h q hq hqp (fun e => hne e.symm))

/-- Of the remote paths that go, the ones flagged as not kept locally go to the
trash if it is enabled. -/
theorem C18_trash_partial {lkeys rkeys : List Path} {db : ALocal} {rdb : ARemote} {tr : Bool}
    {r : DeletedPaths} (h : computeDeleted lkeys rkeys db rdb tr = some r) (p : Path) :
    p ∈ r.trash ↔ tr = true ∧ (p ∈ r.rem ∨ p ∈ r.trash) ∧
      ∃ e ∈ db, e.path = p ∧ e.data.loc = false := by
  refine ((computeDeleted_cases h).2.2.2 p).trans ?_
  rw [and_left_comm]
  refine and_congr_right (fun _ => and_congr_right (fun _ => ?_))
  simp only [ADB.paths, ALocal.getPaths, ADB.rows, List.mem_map, List.mem_filter,
    nil_isPrefixOf, and_true, decide_eq_true_eq]
  constructor
  · rintro ⟨e, ⟨he, _, h2⟩, rfl⟩
    refine ⟨e, he, rfl, ?_⟩
    rcases h2 with h2 | h2
    · simp at h2
    · simpa using h2.symm
  · rintro ⟨e, he, rfl, h2⟩
    exact ⟨e, ⟨he, Or.inl trivial, Or.inr (by rw [h2])⟩, rfl⟩

/-- With the trash enabled, a path is deleted for good only if it and everything
known below it is flagged as kept locally. The profile database is the result
of any history of calls. -/
theorem C18_permanent_partial {h : Str → Int} {U : Path → Prop} (u : Univ h U) {ops : List LOp}
    {db : LocalDB} (H : HistL h U ProgramCall ops db) {lkeys rkeys : List Path} {rdb : ARemote}
    {r : DeletedPaths} (hr : computeDeleted lkeys rkeys db.abs rdb true = some r) {p : Path}
    (hp : p ∈ r.rem) {n : Row PData} (hn : n ∈ LocalDB.getPaths h db [] none none)
    (hpn : p <+: n.path) : n.data.loc = true := by
  have hu := (computeDeleted_cases hr).2.1 p
  obtain ⟨hk, _, _⟩ := hu.1 (Or.inl hp)
  obtain ⟨w, _⟩ := H.inv u
  obtain ⟨e, he, rfl⟩ := List.mem_map.1 hk
  obtain ⟨m, hm, rfl⟩ := List.mem_map.1 he
  have hm' : m ∈ LocalDB.getPaths h db [] none none := by rw [getPaths_all u w]; exact hm
  refine C06_below u H hm' hn hpn ?_
  have hnt := (computeDeleted_cases hr).2.2.1 _ hp
  rw [C18_trash_partial hr] at hnt
  cases hl : m.data.loc with
  | true => rfl
  | false => exact absurd ⟨rfl, Or.inl hp, m.toEntry, he, rfl, hl⟩ hnt

/-! ### Examples -/

/-- `d` and `x` were deleted locally, `y` remotely. -/
def exDelDB : ALocal :=
  [⟨["d".toList], true, ⟨1, false⟩⟩, ⟨["d".toList, "a".toList], false, ⟨1, true⟩⟩,
   ⟨["d".toList, "b".toList], false, ⟨1, false⟩⟩, ⟨["x".toList], false, ⟨1, true⟩⟩,
   ⟨["y".toList], false, ⟨1, true⟩⟩]

example : computeDeleted [["y".toList]]
    [["d".toList], ["d".toList, "a".toList], ["d".toList, "b".toList], ["x".toList]] exDelDB
    (exDelDB.map (fun e => ⟨e.path, e.directory, 0⟩)) true
    = some ⟨[["y".toList]], [["x".toList]], [["d".toList]]⟩ := by decide +kernel

/-- Another client deleted `x` as well and synced before: the sync of this
client raises. -/
theorem C18_raises_example : ∃ (lkeys rkeys : List Path) (db : ALocal) (rdb : ARemote),
    (∀ p, p ∈ ADB.paths rdb ↔ p ∈ rkeys) ∧ lkeys = rkeys ∧
      computeDeleted lkeys rkeys db rdb true = none :=
  ⟨[["y".toList]], [["y".toList]],
    [⟨["x".toList], false, ⟨1, true⟩⟩, ⟨["y".toList], false, ⟨1, true⟩⟩],
    [⟨["y".toList], false, 0⟩], fun _ => Iff.rfl, rfl, by decide +kernel⟩

end Verif
