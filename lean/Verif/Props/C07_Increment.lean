import Verif.Props.C05_C06_Aggregates
/-
C07: increments are exact.
-/
namespace Verif
open ADB ALocal

section
variable {γ : Type}

theorem eq_of_fst {v w : List (Path × γ)} (hf : v.map Prod.fst = w.map Prod.fst)
    (hn : (v.map Prod.fst).Nodup) (h : ∀ x ∈ v, ∀ y ∈ w, x.1 = y.1 → x.2 = y.2) : v = w := by
  induction v generalizing w with
  | nil => cases w with
    | nil => rfl
    | cons _ _ => simp at hf
  | cons x v ih => cases w with
    | nil => simp at hf
    | cons y w =>
      simp only [List.map_cons, List.cons.injEq, List.nodup_cons] at hf hn
      have hxy : x = y := Prod.ext hf.1 (h x (by simp) y (by simp) hf.1)
      rw [hxy, ih hf.2 hn.2 (fun a ha b hb => h a (by simp [ha]) b (by simp [hb]))]

theorem kids_fst {v w : List (Path × γ)} (hf : v.map Prod.fst = w.map Prod.fst) (p : Path) :
    (kids v p).map Prod.fst = (kids w p).map Prod.fst := by
  have : ∀ u : List (Path × γ), (kids u p).map Prod.fst
      = (u.map Prod.fst).filter (fun q => decide (q.dropLast = p)) := by
    intro u; unfold kids; rw [List.filter_map]; rfl
  rw [this, this, hf]

theorem kids_nodup {v : List (Path × γ)} (hn : (v.map Prod.fst).Nodup) (p : Path) :
    ((kids v p).map Prod.fst).Nodup :=
  hn.sublist (List.filter_sublist.map Prod.fst)

/-- A column that satisfies the aggregate equation is determined by its values
at paths without entries. -/
theorem aggV_unique {g : List γ → γ} {v w : List (Path × γ)}
    (hf : v.map Prod.fst = w.map Prod.fst) (hn : (v.map Prod.fst).Nodup)
    (h0 : ∀ x ∈ v, x.1 ≠ []) (hv : AggV g v) (hw : AggV g w)
    (hl : ∀ x ∈ v, ∀ y ∈ w, x.1 = y.1 → kids v x.1 = [] → x.2 = y.2) : v = w := by
  obtain ⟨L, hL⟩ : ∃ L, ∀ x ∈ v, x.1.length ≤ L := by
    clear hf hn h0 hv hl
    induction v with
    | nil => exact ⟨0, by simp⟩
    | cons a v ih =>
      obtain ⟨L, hL⟩ := ih
      refine ⟨L + a.1.length, fun x hx => ?_⟩
      rcases List.mem_cons.1 hx with rfl | hx
      · omega
      · have := hL x hx; omega
  apply eq_of_fst hf hn
  have key : ∀ k, ∀ x ∈ v, ∀ y ∈ w, x.1 = y.1 → L - x.1.length ≤ k → x.2 = y.2 := by
    intro k
    induction k with
    | zero =>
      intro x hx y hy hxy hk
      apply hl x hx y hy hxy
      apply kids_eq_nil
      intro z hz hzx
      have h1 := hL z hz
      have h2 := h0 z hz
      have h3 := congrArg List.length hzx
      have h4 := List.length_pos_iff.2 h2
      simp at h3
      omega
    | succ k ih =>
      intro x hx y hy hxy hk
      by_cases hc : kids v x.1 = []
      · exact hl x hx y hy hxy hc
      · have hkk : kids v x.1 = kids w y.1 := by
          rw [← hxy]
          apply eq_of_fst (kids_fst hf _) (kids_nodup hn _)
          intro a ha b hb hab
          obtain ⟨ha1, ha2⟩ := mem_kids.1 ha
          apply ih a ha1 b (mem_kids.1 hb).1 hab
          have h1 := hL a ha1
          have h3 := congrArg List.length ha2
          have h4 := List.length_pos_iff.2 (h0 a ha1)
          simp at h3
          omega
        rw [hv x hx hc, hw y hy (by rw [← hkk]; exact hc), hkk]
  exact fun x hx y hy hxy => key _ x hx y hy hxy (Nat.le_refl _)

end

/-- How many of the listed paths are `p` or below it. -/
def below (ps : List Path) (p : Path) : Nat := ps.countP (fun s => p.isPrefixOf s)

theorem dropLast_eq_take {q p : Path} (hq : q ≠ []) :
    q.dropLast = p ↔ q.length = p.length + 1 ∧ p <+: q := by
  constructor
  · rintro rfl
    have := List.length_pos_iff.2 hq
    exact ⟨by simp; omega, List.dropLast_prefix q⟩
  · rintro ⟨hl, t, ht⟩
    have : t.length = 1 := by
      have := congrArg List.length ht
      simp at this; omega
    obtain ⟨c, rfl⟩ := List.length_eq_one_iff.1 this
    rw [← ht]; simp

theorem below_kids {K : List Path} (hn : K.Nodup) (h0 : ∀ p ∈ K, p ≠ []) (hcl : DB.ParentClosed K)
    {p : Path} (hk : ∃ q ∈ K, q.dropLast = p) (ps : List Path)
    (hps : ∀ s ∈ ps, s ∈ K ∧ ∀ q ∈ K, q.dropLast ≠ s) :
    below ps p = ((K.filter (fun q => decide (q.dropLast = p))).map (below ps)).sum := by
  induction ps with
  | nil =>
    have : ∀ l : List Path, (l.map (below [])).sum = 0 := by
      intro l; induction l with
      | nil => rfl
      | cons a l ih => rw [List.map_cons, List.sum_cons, ih]; rfl
    rw [this]; rfl
  | cons s ps ih =>
    have ih := ih (fun x hx => hps x (by simp [hx]))
    obtain ⟨hsK, hsl⟩ := hps s (by simp)
    have hsplit : ∀ l : List Path, (l.map (below (s :: ps))).sum
        = (l.map (below ps)).sum + l.countP (fun q => q.isPrefixOf s) := by
      intro l
      induction l with
      | nil => rfl
      | cons a l ih2 =>
        rw [List.map_cons, List.sum_cons, ih2, List.map_cons, List.sum_cons, List.countP_cons]
        have : below (s :: ps) a = below ps a + if a.isPrefixOf s = true then 1 else 0 := by
          unfold below; rw [List.countP_cons]
        rw [this]; omega
    rw [hsplit, ← ih]
    have : below (s :: ps) p = below ps p + if p.isPrefixOf s = true then 1 else 0 := by
      unfold below; rw [List.countP_cons]
    rw [this]
    congr 1
    set kp := K.filter (fun q => decide (q.dropLast = p)) with hkp
    have hkn : kp.Nodup := hn.sublist List.filter_sublist
    by_cases hp : p.isPrefixOf s = true
    · rw [if_pos hp]
      rw [List.isPrefixOf_iff_prefix] at hp
      obtain ⟨t, ht⟩ := hp
      have ht0 : t ≠ [] := by
        rintro rfl
        simp at ht
        obtain ⟨q, hq, hqp⟩ := hk
        exact hsl q hq (by rw [hqp, ht])
      obtain ⟨c, t, rfl⟩ := List.exists_cons_of_ne_nil ht0
      have hq0 : p ++ [c] ∈ kp := by
        rw [hkp, List.mem_filter]
        exact ⟨hcl.anc hsK (by simp) ⟨t, by rw [← ht]; simp⟩, by simp⟩
      have hiff : ∀ q ∈ kp, (q.isPrefixOf s = true ↔ (q == p ++ [c]) = true) := by
        intro q hq
        rw [hkp, List.mem_filter] at hq
        have hqd : q.dropLast = p := by simpa using hq.2
        have hq1 := (dropLast_eq_take (h0 q hq.1)).1 hqd
        rw [List.isPrefixOf_iff_prefix, beq_iff_eq]
        constructor
        · intro hqs
          have h1 : p ++ [c] <+: s := ⟨t, by rw [← ht]; simp⟩
          exact (List.prefix_of_prefix_length_le hqs h1 (by simp; omega)).eq_of_length
            (by simp; omega)
        · rintro rfl
          exact ⟨t, by rw [← ht]; simp⟩
      rw [List.countP_congr hiff]
      have := hkn.count (a := p ++ [c])
      rw [if_pos hq0] at this
      exact this.symm
    · rw [if_neg hp]
      symm
      rw [List.countP_eq_zero]
      intro q hq hqs
      rw [hkp, List.mem_filter] at hq
      have hqd : q.dropLast = p := by simpa using hq.2
      rw [List.isPrefixOf_iff_prefix] at hqs hp
      exact hp (((dropLast_eq_take (h0 q hq.1)).1 hqd).2.trans hqs)

theorem view_updateWhere_add (a : ALocal) (ps : List Path) (x : Rat) :
    vPrio (updateWhere a ps (fun e : Entry PData =>
      { e with data := { e.data with priority := e.data.priority + x } }))
    = (vPrio a).map (fun y => (y.1, y.2 + x * (ps.count y.1 : Rat))) := by
  induction ps generalizing a with
  | nil => simp [updateWhere, view]
  | cons p ps ih =>
    have : updateWhere a (p :: ps) (fun e : Entry PData =>
        { e with data := { e.data with priority := e.data.priority + x } })
        = updateWhere (updateWhere a [p] (fun e : Entry PData =>
        { e with data := { e.data with priority := e.data.priority + x } })) ps
        (fun e : Entry PData =>
        { e with data := { e.data with priority := e.data.priority + x } }) := rfl
    rw [this, ih]
    simp only [updateWhere, List.foldl_cons, List.foldl_nil, view, List.map_map]
    apply List.map_congr_left
    intro e _
    simp only [Function.comp_apply]
    by_cases hep : e.path = p
    · simp only [hep, if_true, List.count_cons_self, Nat.cast_add, Nat.cast_one, Prod.mk.injEq,
        true_and]
      ring
    · have hpe : ¬ p = e.path := fun h => hep h.symm
      simp only [hep, if_false, List.count_cons, beq_iff_eq, hpe, Nat.add_zero]

theorem adb_ext {a b : ALocal} (h1 : pathDir a = pathDir b) (h2 : vPrio a = vPrio b)
    (h3 : vLoc a = vLoc b) : a = b := by
  induction a generalizing b with
  | nil => cases b with
    | nil => rfl
    | cons _ _ => simp [pathDir] at h1
  | cons x a ih => cases b with
    | nil => simp [pathDir] at h1
    | cons y b =>
      simp only [pathDir, view, List.map_cons, List.cons.injEq, Prod.mk.injEq] at h1 h2 h3
      rw [ih h1.2 h2.2 h3.2]
      congr 1
      obtain ⟨xp, xd, xx, xl⟩ := x
      obtain ⟨yp, yd, yx, yl⟩ := y
      simp only at h1 h2 h3
      rw [h1.1.1, h1.1.2, h2.1.2, h3.1.2]

theorem cast_sum_below (l : List Path) (ps : List Path) :
    (((l.map (below ps)).sum : Nat) : Rat) = (l.map (fun q => (below ps q : Rat))).sum := by
  induction l with
  | nil => simp
  | cons a l ih => simp only [List.map_cons, List.sum_cons, Nat.cast_add, ih]

/-- `increment` on the abstract tree. -/
theorem increment_eq {a : ALocal} (t : Tree a) (w : AggOK a) {ps : List Path}
    (hps : ∀ s ∈ ps, s ∈ paths a ∧ ∀ q ∈ paths a, q.dropLast ≠ s) (x : Rat) :
    increment a ps x = a.map (fun e =>
      { e with data := { e.data with priority := e.data.priority + x * (below ps e.path : Rat) } }) := by
  have hel : EntryListed (paths a) ps := by
    rintro p hp ⟨k, hk, hkp⟩
    exact absurd hkp ((hps p hp).2 k hk)
  have w' := aggOK_increment t w hel x
  have hpaths : paths (increment a ps x) = paths a := by
    unfold increment
    rw [paths_updateAgg]; exact paths_updateWhere a ps _ (fun _ => rfl)
  apply adb_ext
  · unfold increment pathDir
    rw [pathDir_updateAgg]
    have := pathDir_updateWhere_keep a ps (fun e : Entry PData =>
      { e with data := { e.data with priority := e.data.priority + x } }) (fun _ => rfl) (fun _ => rfl)
    unfold pathDir at this
    rw [this]
    simp [Function.comp_def]
  · have hw : vPrio (a.map (fun e : Entry PData =>
        { e with data := { e.data with priority := e.data.priority + x * (below ps e.path : Rat) } }))
        = (vPrio a).map (fun y => (y.1, y.2 + x * (below ps y.1 : Rat))) := by
      simp [view, Function.comp_def]
    rw [hw]
    have hf : (vPrio (increment a ps x)).map Prod.fst
        = ((vPrio a).map (fun y => (y.1, y.2 + x * (below ps y.1 : Rat)))).map Prod.fst := by
      rw [view_paths, hpaths, ← view_paths PData.priority a, List.map_map]; rfl
    apply aggV_unique (g := List.sum) hf
    · rw [view_paths, hpaths]; exact t.nodup
    · intro y hy
      have := fst_mem_view hy
      rw [hpaths] at this
      exact t.ne _ this
    · exact w'.prio
    · have hk : ∀ p, kids ((vPrio a).map (fun y => (y.1, y.2 + x * (below ps y.1 : Rat)))) p
          = (kids (vPrio a) p).map (fun y => (y.1, y.2 + x * (below ps y.1 : Rat))) := by
        intro p; unfold kids; rw [List.filter_map]; rfl
      intro y hy hky
      obtain ⟨z, hz, rfl⟩ := List.mem_map.1 hy
      rw [hk] at hky ⊢
      simp only [ne_eq, List.map_eq_nil_iff] at hky
      have hz2 := w.prio z hz hky
      obtain ⟨c, hc, hcz⟩ := exists_kid hky
      have hb := below_kids t.nodup t.ne t.closed (p := z.1) ⟨c.1, fst_mem_view hc, hcz⟩ ps hps
      simp only [List.map_map]
      have hsum : ∀ l : List (Path × Rat), (l.map (Prod.snd ∘ fun y : Path × Rat =>
          (y.1, y.2 + x * (below ps y.1 : Rat)))).sum
          = (l.map Prod.snd).sum + x * ((l.map Prod.fst).map (fun q => (below ps q : Rat))).sum := by
        intro l
        induction l with
        | nil => simp
        | cons b l ih => simp only [List.map_cons, List.sum_cons, ih, Function.comp_apply]; ring
      rw [hsum, ← hz2, hb, cast_sum_below]
      have hkf : (kids (vPrio a) z.1).map Prod.fst
          = (paths a).filter (fun q => decide (q.dropLast = z.1)) := by
        rw [← view_paths PData.priority a]
        unfold kids; rw [List.filter_map]; rfl
      rw [hkf]
    · intro y hy z hz hyz hky
      obtain ⟨z, hz', rfl⟩ := List.mem_map.1 hz
      simp only at hyz
      have hnk : ∀ q ∈ paths a, q.dropLast ≠ y.1 := by
        intro q hq hqy
        rw [← hpaths, ← view_paths PData.priority] at hq
        obtain ⟨b, hb, rfl⟩ := List.mem_map.1 hq
        have : b ∈ kids (vPrio (increment a ps x)) y.1 := mem_kids.2 ⟨hb, hqy⟩
        rw [hky] at this; simp at this
      have hnot : y.1 ∉ pathAncestry (DB.parentsOf ps) :=
        not_mem_ancestry_parents (K := paths a) t.closed (fun s hs => (hps s hs).1) hnk
      have hcount : below ps y.1 = ps.count y.1 := by
        unfold below List.count
        apply List.countP_congr
        intro s hs
        rw [List.isPrefixOf_iff_prefix, beq_iff_eq]
        constructor
        · rintro ⟨r, hr⟩
          cases r with
          | nil => simpa using hr.symm
          | cons c r =>
            exact absurd (by simp) (hnk (y.1 ++ [c])
              (t.closed.anc (hps s hs).1 (by simp) ⟨r, by rw [← hr]; simp⟩))
        · rintro rfl; exact List.prefix_refl _
      have hy2 : y ∈ vPrio (updateWhere a ps (fun e : Entry PData =>
          { e with data := { e.data with priority := e.data.priority + x } })) := by
        have : vPrio (increment a ps x) = (pathAncestry (DB.parentsOf ps)).foldl (vStep List.sum)
            (vPrio (updateWhere a ps (fun e : Entry PData =>
              { e with data := { e.data with priority := e.data.priority + x } }))) := by
          unfold increment vPrio
          rw [view_updateAgg (agg := aggPriority) (g := List.sum) (fun _ _ => rfl)]
        rw [this] at hy
        exact (mem_vFold_of_not _ hnot).1 hy
      rw [view_updateWhere_add] at hy2
      obtain ⟨u, hu, rfl⟩ := List.mem_map.1 hy2
      have : u = z := by
        have hn := t.nodup
        rw [← view_paths PData.priority a] at hn
        exact nodup_map_inj Prod.fst hn hu hz' hyz
      subst this
      simp only at hcount ⊢
      rw [hcount]
  · have : vLoc (increment a ps x) = vLoc a := by
      unfold increment vLoc
      rw [view_updateAgg_keep (agg := aggPriority) (fun _ _ => rfl),
        view_updateWhere_keep _ _ _ (fun e : Entry PData =>
          { e with data := { e.data with priority := e.data.priority + x } }) (fun _ => rfl)
        (fun _ => rfl)]
    rw [this]
    simp [view, Function.comp_def]

variable {h : Str → Int} {U : Path → Prop}

theorem info_map {δ : Type} (a : ADB δ) (f : Entry δ → Entry δ) (hf : ∀ e, (f e).path = e.path)
    (p : Path) : info (a.map f) p = (info a p).map f := by
  unfold info
  rw [List.find?_map]
  congr 1
  congr 1
  funext e
  simp [hf]

/-- `increment(ps, x)` for known paths without entries: the priority of any
path grows by `x` for each listed path at or below it, everything else stays. -/
theorem C07_increment (u : Univ h U) {ops : List LOp} {db : LocalDB}
    (H : HistL h U ProgramCall ops db) {ps : List Path}
    (hps : ∀ s ∈ ps, KnownL ops s ∧ ∀ q, KnownL ops q → q.dropLast ≠ s) (x : Rat)
    {p : Path} (hp : U p) :
    DB.getPathInfo h (LocalDB.increment h db ps x) p
      = (DB.getPathInfo h db p).map (fun i => (i.1, ⟨i.2.priority
          + x * ((ps.countP (fun s => p.isPrefixOf s) : Nat) : Rat), i.2.loc⟩)) := by
  obtain ⟨w, hK⟩ := H.inv u
  have t := w.tree u
  have hU : ∀ s ∈ ps, U s := fun s hs => w.sub s ((hK s).2 (hps s hs).1)
  have legal : LOp.Legal U (paths db.abs) (.increment ps x) := by
    refine ⟨hU, ?_⟩
    intro h; simp [LOp.isAdd] at h
  obtain ⟨db', hs, w', habs⟩ : ∃ db', LocalDB.step h db (.increment ps x) = some db' ∧
      DB.InU h U db' ∧ ALocal.step db.abs (.increment ps x) = some db'.abs := by
    obtain ⟨r1, r2⟩ := LocalDB.step_refine u w legal
    exact ⟨_, rfl, r2 _ rfl, r1.symm⟩
  have hdb' : db' = LocalDB.increment h db ps x := by simpa [LocalDB.step] using hs.symm
  subst hdb'
  have habs : (LocalDB.increment h db ps x).abs = ALocal.increment db.abs ps x := by
    simpa [ALocal.step] using habs.symm
  rw [DB.getPathInfo_refine w.wf (w.idOK u hp), DB.getPathInfo_refine w'.wf (w'.idOK u hp), habs,
    increment_eq t (H.aggOK u (fun _ _ h => h))
      (fun s hs => ⟨(hK s).2 (hps s hs).1, fun q hq => (hps s hs).2 q ((hK q).1 hq)⟩) x,
    info_map _ (fun e : Entry PData => { e with data := { e.data with priority :=
      e.data.priority + x * (below ps e.path : Rat) } }) (fun _ => rfl)]
  cases hi : info db.abs p with
  | none => rfl
  | some e =>
    obtain ⟨_, rfl⟩ := (info_eq_some w.wf.pathNodup).1 hi
    rfl

/-- The same for known *files* (rows with `directory = 0`), as the daemon calls
it: along histories in which no call turns a directory into a file, a file has
no entries. -/
theorem C07_files (u : Univ h U) {ops : List LOp} {db : LocalDB}
    (H : HistL h U (fun K op => ProgramCall K op ∧ NoFileMark K op) ops db) {ps : List Path}
    (hU : ∀ s ∈ ps, U s)
    (hps : ∀ s ∈ ps, ∃ d, DB.getPathInfo h db s = some (false, d)) (x : Rat)
    {p : Path} (hp : U p) :
    DB.getPathInfo h (LocalDB.increment h db ps x) p
      = (DB.getPathInfo h db p).map (fun i => (i.1, ⟨i.2.priority
          + x * ((ps.countP (fun s => p.isPrefixOf s) : Nat) : Rat), i.2.loc⟩)) := by
  obtain ⟨w, hK⟩ := H.inv u
  refine C07_increment u (H.mono (fun _ _ h => h.1)) (fun s hs => ?_) x hp
  obtain ⟨d, hd⟩ := hps s hs
  refine ⟨(C01_local_info u H (hU s hs)).1 (by rw [hd]; rfl), fun q hq hqs => ?_⟩
  rw [DB.getPathInfo_refine w.wf (w.idOK u (hU s hs)), Option.map_eq_some_iff] at hd
  obtain ⟨e, he, hed⟩ := hd
  obtain ⟨hm, hep⟩ := (info_eq_some w.wf.pathNodup).1 he
  have := H.dirOK u (fun _ _ h => h.2) (e.path, e.directory)
    (List.mem_map_of_mem (f := fun e => (e.path, e.directory)) hm)
    ⟨q, (hK q).2 hq, by rw [hep]; exact hqs⟩
  simp only [Prod.mk.injEq] at hed
  simp [hed.1] at this

/-- Opening `docs/a` and twice `x` in the example. -/
example :
    let db := LocalDB.increment exHash exDB
      [["docs".toList, "a".toList], ["x".toList], ["x".toList]] 1
    (DB.getPathInfo exHash db ["docs".toList]).map (fun i => i.2.priority) = some (9/2) ∧
    (DB.getPathInfo exHash db ["x".toList]).map (fun i => i.2.priority) = some 4 ∧
    (DB.getPathInfo exHash db ["docs".toList, "b".toList]).map (fun i => i.2.priority) = some 2 := by
  decide +kernel

/-- The hypotheses of `C07_files` hold for the history of the examples. -/
example : ∃ db, HistL exHash (fun p => p ∈ exPaths)
    (fun K op => ProgramCall K op ∧ NoFileMark K op) exOps db ∧
    ∀ s ∈ [["docs".toList, "a".toList], ["x".toList], ["x".toList]],
      ∃ d, DB.getPathInfo exHash db s = some (false, d) := by
  obtain ⟨db, H⟩ := exHist
  refine ⟨db, H, ?_⟩
  have hdb : db = exDB := by unfold exDB; rw [H.run_eq]; rfl
  subst hdb
  intro s hs
  have : ∀ s ∈ [["docs".toList, "a".toList], ["x".toList], ["x".toList]],
    (DB.getPathInfo exHash exDB s).map Prod.fst = some false := by decide +kernel
  have := this s hs
  rw [Option.map_eq_some_iff] at this
  obtain ⟨⟨a, d⟩, h1, rfl⟩ := this
  exact ⟨d, h1⟩

end Verif
