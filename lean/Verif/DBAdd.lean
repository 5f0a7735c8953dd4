import Verif.DBRefine
import Mathlib.Tactic.Tauto
/-
`add_paths`: the collision loop, and refinement of the insertions.
-/
namespace Verif
namespace DB
variable {δ : Type}

/-! ### The collision loop -/

theorem getPathId_append {h : Str → Int} {coll extra : List (Path × Str)} {p : Path}
    (hp : ∀ e ∈ extra, e.1 ≠ p) : getPathId h (coll ++ extra) p = getPathId h coll p := by
  simp only [getPathId, List.find?_append]
  have : extra.find? (fun e => decide (e.1 = p)) = none := by
    rw [List.find?_eq_none]
    intro e he
    simpa using hp e he
  rw [this]
  simp

/-- The rows one round adds. -/
structure RoundExtra (h : Str → Int) (ns : List (Row δ)) (paths : List Path)
    (coll extra : List (Path × Str)) : Prop where
  mem : ∀ e ∈ extra, e.1 ∈ paths
  fresh : ∀ e ∈ extra, ∀ c ∈ coll, c.1 ≠ e.1
  clash : ∀ e ∈ extra, ∃ n ∈ ns, n.id = getPathId h coll e.1 ∧ n.path ≠ e.1

theorem collRound_extra (h : Str → Int) (salt : Path → Str) (ns : List (Row δ))
    (paths : List Path) (coll : List (Path × Str)) :
    ∃ extra, collRound h salt ns paths coll = coll ++ extra ∧
      RoundExtra h ns paths coll extra ∧
      (∀ p ∈ paths, (∃ n ∈ ns, n.id = getPathId h coll p ∧ n.path ≠ p) →
        (∃ c ∈ coll, c.1 = p) ∨ (∃ e ∈ extra, e.1 = p)) := by
  have key : ∀ (l : List Path), (∀ p ∈ l, p ∈ paths) → ∀ (ex : List (Path × Str)),
      RoundExtra h ns paths coll ex →
      ∃ extra, (l.map (fun p => (p, getPathId h coll p))).foldl
          (fun acc pi => insertColl ns salt pi.1 pi.2 acc) (coll ++ ex) = coll ++ extra ∧
        RoundExtra h ns paths coll extra ∧ (∀ e ∈ ex, e ∈ extra) ∧
        (∀ p ∈ l, (∃ n ∈ ns, n.id = getPathId h coll p ∧ n.path ≠ p) →
          (∃ c ∈ coll, c.1 = p) ∨ (∃ e ∈ extra, e.1 = p)) := by
    intro l
    induction l with
    | nil =>
      intro _ ex hex
      exact ⟨ex, rfl, hex, fun _ h => h, by simp⟩
    | cons p l ih =>
      intro hl ex hex
      simp only [List.map_cons, List.foldl_cons]
      have hp : p ∈ paths := hl p (by simp)
      have hl' : ∀ q ∈ l, q ∈ paths := fun q hq => hl q (List.mem_cons_of_mem _ hq)
      by_cases hany : ns.any (fun n => decide (n.id = getPathId h coll p ∧ n.path ≠ p)) = true
      · have hclash : ∃ n ∈ ns, n.id = getPathId h coll p ∧ n.path ≠ p := by
          simpa [List.any_eq_true] using hany
        by_cases hin : (coll ++ ex).any (fun e => decide (e.1 = p)) = true
        · have hstep : insertColl ns salt p (getPathId h coll p) (coll ++ ex) = coll ++ ex := by
            unfold insertColl
            rw [if_pos hany, if_pos hin]
          rw [hstep]
          obtain ⟨extra, h1, h2, h3, h4⟩ := ih hl' ex hex
          refine ⟨extra, h1, h2, h3, ?_⟩
          intro q hq hqc
          rcases List.mem_cons.1 hq with rfl | hq
          · rw [List.any_eq_true] at hin
            obtain ⟨e, he, he2⟩ := hin
            have he2 : e.1 = q := by simpa using he2
            rcases List.mem_append.1 he with he | he
            · exact Or.inl ⟨e, he, he2⟩
            · exact Or.inr ⟨e, h3 e he, he2⟩
          · exact h4 q hq hqc
        · have hstep : insertColl ns salt p (getPathId h coll p) (coll ++ ex)
              = coll ++ (ex ++ [(p, salt p)]) := by
            unfold insertColl
            rw [if_pos hany, if_neg hin, List.append_assoc]
          rw [hstep]
          have hex' : RoundExtra h ns paths coll (ex ++ [(p, salt p)]) := by
            refine ⟨?_, ?_, ?_⟩
            · intro e he
              rcases List.mem_append.1 he with he | he
              · exact hex.mem e he
              · simp at he; subst he; exact hp
            · intro e he c hc
              rcases List.mem_append.1 he with he | he
              · exact hex.fresh e he c hc
              · simp at he; subst he
                intro hcp
                apply hin
                rw [List.any_eq_true]
                exact ⟨c, by simp [hc], by simpa using hcp⟩
            · intro e he
              rcases List.mem_append.1 he with he | he
              · exact hex.clash e he
              · simp at he; subst he; exact hclash
          obtain ⟨extra, h1, h2, h3, h4⟩ := ih hl' _ hex'
          refine ⟨extra, h1, h2, fun e he => h3 e (by simp [he]), ?_⟩
          intro q hq hqc
          rcases List.mem_cons.1 hq with rfl | hq
          · exact Or.inr ⟨(q, salt q), h3 _ (by simp), rfl⟩
          · exact h4 q hq hqc
      · have hstep : insertColl ns salt p (getPathId h coll p) (coll ++ ex) = coll ++ ex := by
          unfold insertColl
          rw [if_neg hany]
        rw [hstep]
        obtain ⟨extra, h1, h2, h3, h4⟩ := ih hl' ex hex
        refine ⟨extra, h1, h2, h3, ?_⟩
        intro q hq hqc
        rcases List.mem_cons.1 hq with rfl | hq
        · exact absurd (by simpa [List.any_eq_true] using hqc) hany
        · exact h4 q hq hqc
  obtain ⟨extra, h1, h2, _, h4⟩ := key paths (fun _ h => h) [] ⟨by simp, by simp, by simp⟩
  rw [List.append_nil] at h1
  exact ⟨extra, h1, h2, h4⟩

theorem countP_lt {α : Type _} {P Q : α → Bool} {l : List α} (himp : ∀ x ∈ l, P x = true → Q x = true)
    {x : α} (hx : x ∈ l) (hq : Q x = true) (hp : P x = false) : l.countP P < l.countP Q := by
  induction l with
  | nil => simp at hx
  | cons y ys ih =>
    have hle : ys.countP P ≤ ys.countP Q :=
      List.countP_mono_left (fun z hz => himp z (List.mem_cons_of_mem _ hz))
    rw [List.countP_cons, List.countP_cons]
    rcases List.mem_cons.1 hx with rfl | hx
    · simp [hq, hp]; omega
    · have := ih (fun z hz => himp z (List.mem_cons_of_mem _ hz)) hx
      have hy := himp y (by simp)
      by_cases hPy : P y = true
      · simp [hPy, hy hPy]; omega
      · simp [hPy]; omega

/-- The paths of the batch that have no salt yet. -/
def unsalted (paths : List Path) (coll : List (Path × Str)) : Nat :=
  paths.countP (fun p => !coll.any (fun e => decide (e.1 = p)))

theorem collRound_progress (h : Str → Int) (salt : Path → Str) (ns : List (Row δ))
    (paths : List Path) (coll : List (Path × Str))
    (hne : (collRound h salt ns paths coll).length ≠ coll.length) :
    unsalted paths (collRound h salt ns paths coll) < unsalted paths coll := by
  obtain ⟨extra, h1, h2, _⟩ := collRound_extra h salt ns paths coll
  rw [h1] at hne ⊢
  have hex : extra ≠ [] := by rintro rfl; simp at hne
  obtain ⟨e, es, rfl⟩ := List.exists_cons_of_ne_nil hex
  have hmem := h2.mem e (by simp)
  refine countP_lt ?_ hmem ?_ ?_
  · intro p _ hp
    simp only [Bool.not_eq_true', List.any_append, Bool.or_eq_false_iff] at hp ⊢
    exact hp.1
  · simp only [Bool.not_eq_true', List.any_eq_false, decide_eq_true_eq]
    exact h2.fresh e (by simp)
  · simp

/-- With enough fuel the loop ends in a state in which a round adds nothing, and
more fuel makes no difference. -/
theorem collLoop_fix (h : Str → Int) (salt : Path → Str) (ns : List (Row δ)) (paths : List Path) :
    ∀ (fuel : Nat) (coll : List (Path × Str)), unsalted paths coll < fuel →
      collRound h salt ns paths (collLoop h salt ns paths fuel coll)
        = collLoop h salt ns paths fuel coll ∧
      ∀ fuel', fuel ≤ fuel' →
        collLoop h salt ns paths fuel' coll = collLoop h salt ns paths fuel coll
  | 0, coll, hf => by omega
  | fuel + 1, coll, hf => by
    by_cases hlen : (collRound h salt ns paths coll).length = coll.length
    · obtain ⟨extra, h1, _, _⟩ := collRound_extra h salt ns paths coll
      have hex : extra = [] := by
        rw [h1] at hlen
        simpa using hlen
      have hsame : collRound h salt ns paths coll = coll := by rw [h1, hex]; simp
      constructor
      · simp only [collLoop, hlen, if_true, hsame]
      · intro fuel' hle
        obtain ⟨k, rfl⟩ : ∃ k, fuel' = k + 1 := ⟨fuel' - 1, by omega⟩
        simp only [collLoop, hlen, if_true]
    · have hprog := collRound_progress h salt ns paths coll hlen
      have := collLoop_fix h salt ns paths fuel (collRound h salt ns paths coll) (by omega)
      constructor
      · simp only [collLoop, hlen, if_false]
        exact this.1
      · intro fuel' hle
        obtain ⟨k, rfl⟩ : ∃ k, fuel' = k + 1 := ⟨fuel' - 1, by omega⟩
        simp only [collLoop, hlen, if_false]
        exact this.2 k (by omega)

theorem unsalted_le (paths : List Path) (coll : List (Path × Str)) :
    unsalted paths coll ≤ paths.length := List.countP_le_length

/-- What the loop keeps: stored paths keep their ids, and every new salt is
for a path of the batch that is not stored. -/
theorem collLoop_keeps {h : Str → Int} {salt : Path → Str} {ns : List (Row δ)} {paths : List Path}
    (hnd : (ns.map Row.id).Nodup) :
    ∀ (fuel : Nat) (coll : List (Path × Str)), (∀ n ∈ ns, n.id = getPathId h coll n.path) →
      ∃ extra, collLoop h salt ns paths fuel coll = coll ++ extra ∧
        (∀ e ∈ extra, e.1 ∈ paths ∧ ∀ n ∈ ns, n.path ≠ e.1) ∧
        (∀ n ∈ ns, n.id = getPathId h (collLoop h salt ns paths fuel coll) n.path)
  | 0, coll, hid => ⟨[], by simp [collLoop], by simp, by simpa [collLoop] using hid⟩
  | fuel + 1, coll, hid => by
    obtain ⟨extra, h1, h2, _⟩ := collRound_extra h salt ns paths coll
    have hnot : ∀ e ∈ extra, ∀ n ∈ ns, n.path ≠ e.1 := by
      intro e he n hn hne
      obtain ⟨m, hm, hm1, hm2⟩ := h2.clash e he
      have : m = n := nodup_map_inj Row.id hnd hm hn (by rw [hm1, hid n hn, hne])
      exact hm2 (by rw [this, hne])
    have hid' : ∀ n ∈ ns, n.id = getPathId h (coll ++ extra) n.path := by
      intro n hn
      rw [getPathId_append (fun e he => fun h' => hnot e he n hn h'.symm)]
      exact hid n hn
    by_cases hlen : (collRound h salt ns paths coll).length = coll.length
    · have hl : collLoop h salt ns paths (fuel + 1) coll = coll ++ extra := by
        simp only [collLoop, hlen, if_true]
        exact h1
      refine ⟨extra, hl, ?_, ?_⟩
      · exact fun e he => ⟨h2.mem e he, hnot e he⟩
      · rw [hl]
        exact hid'
    · simp only [collLoop, hlen, if_false]
      rw [h1]
      obtain ⟨extra2, e1, e2, e3⟩ := collLoop_keeps (salt := salt) (paths := paths) hnd fuel
        (coll ++ extra) hid'
      refine ⟨extra ++ extra2, by rw [e1]; simp, ?_, e3⟩
      intro e he
      rcases List.mem_append.1 he with he | he
      · exact ⟨h2.mem e he, hnot e he⟩
      · exact e2 e he

/-- Without clashes the loop leaves the collision table alone. -/
theorem collLoop_noclash {h : Str → Int} {salt : Path → Str} {ns : List (Row δ)}
    {paths : List Path} {coll : List (Path × Str)}
    (hok : ∀ p ∈ paths, ∀ n ∈ ns, n.id = getPathId h coll p → n.path = p) (fuel : Nat) :
    collLoop h salt ns paths fuel coll = coll := by
  obtain ⟨extra, h1, h2, _⟩ := collRound_extra h salt ns paths coll
  have hex : extra = [] := by
    cases extra with
    | nil => rfl
    | cons e es =>
      obtain ⟨n, hn, hn1, hn2⟩ := h2.clash e (by simp)
      exact absurd (hok e.1 (h2.mem e (by simp)) n hn hn1) hn2
  have hr : collRound h salt ns paths coll = coll := by rw [h1, hex]; simp
  cases fuel with
  | zero => rfl
  | succ k => simp [collLoop, hr]

/-! ### Insertions -/

theorem mem_insertClo_foldl {rows cs : List Clo} {x : Clo}
    (hcons : ∀ c ∈ cs ++ rows, ∀ c' ∈ cs ++ rows, c.anc = c'.anc → c.desc = c'.desc → c = c') :
    x ∈ rows.foldl (fun acc c => insertClo c acc) cs ↔ x ∈ cs ∨ x ∈ rows := by
  induction rows generalizing cs with
  | nil => simp
  | cons r rs ih =>
    rw [List.foldl_cons]
    by_cases hany : cs.any (fun e => decide (e.anc = r.anc ∧ e.desc = r.desc)) = true
    · have hr : r ∈ cs := by
        rw [List.any_eq_true] at hany
        obtain ⟨e, he, he2⟩ := hany
        have he2 : e.anc = r.anc ∧ e.desc = r.desc := by simpa using he2
        have := hcons e (by simp [he]) r (by simp) he2.1 he2.2
        rwa [this] at he
      have hstep : insertClo r cs = cs := by
        unfold insertClo
        rw [if_pos hany]
      rw [hstep, ih (fun c hc c' hc' => hcons c (by simp at hc ⊢; tauto) c' (by simp at hc' ⊢; tauto))]
      simp only [List.mem_cons]
      constructor
      · rintro (h | h)
        · exact Or.inl h
        · exact Or.inr (Or.inr h)
      · rintro (h | rfl | h)
        · exact Or.inl h
        · exact Or.inl hr
        · exact Or.inr h
    · have hstep : insertClo r cs = cs ++ [r] := by
        unfold insertClo
        rw [if_neg hany]
      rw [hstep, ih (fun c hc c' hc' => hcons c (by simp at hc ⊢; tauto) c' (by simp at hc' ⊢; tauto))]
      simp only [List.mem_append, List.mem_cons, List.not_mem_nil, or_false, or_assoc]

/-- The closure rows over a set of paths. -/
def CloExact (id : Path → Int) (T : List Path) (cs : List Clo) : Prop :=
  ∀ c : Clo, c ∈ cs ↔ ∃ a ∈ T, ∃ d ∈ T,
    c.anc = id a ∧ c.desc = id d ∧ a <+: d ∧ c.depth = d.length - a.length

/-- `T` contains the parent of each of its elements. -/
def ParentClosed (T : List Path) : Prop := ∀ p ∈ T, p.dropLast ≠ [] → p.dropLast ∈ T

theorem ParentClosed.anc {T : List Path} (hT : ParentClosed T) {d q : Path} (hd : d ∈ T)
    (hq : q ≠ []) (hp : q <+: d) : q ∈ T := by
  obtain ⟨t, ht⟩ := hp
  induction hn : t.length generalizing d t with
  | zero =>
    have : t = [] := List.length_eq_zero_iff.1 hn
    subst this
    rw [List.append_nil] at ht
    rw [ht]; exact hd
  | succ n ih =>
    have ht0 : t ≠ [] := by rintro rfl; simp at hn
    have h1 : d.dropLast = q ++ t.dropLast := by
      rw [← ht, List.dropLast_append_of_ne_nil ht0]
    have h2 : d.dropLast ≠ [] := by rw [h1]; simp [hq]
    exact ih (hT d hd h2) t.dropLast h1.symm (by simp [hn])

theorem prefix_dropLast_of_ne {a p : Path} (h : a <+: p) (hne : a ≠ p) : a <+: p.dropLast := by
  obtain ⟨t, rfl⟩ := h
  have ht : t ≠ [] := by rintro rfl; simp at hne
  rw [List.dropLast_append_of_ne_nil ht]
  exact List.prefix_append _ _

theorem insertClosure_exact {id : Path → Int} {T : List Path} {cs : List Clo} {p : Path}
    (hcs : CloExact id T cs) (hT : ParentClosed T) (hTne : ∀ q ∈ T, q ≠ []) (hp0 : p ≠ [])
    (hpar : p.dropLast ≠ [] → p.dropLast ∈ T)
    (hinj : ∀ a ∈ T ++ [p], ∀ b ∈ T ++ [p], id a = id b → a = b) :
    CloExact id (T ++ [p])
      (insertClosure cs (id p) (if p.dropLast ≠ [] then id p.dropLast else id p)) := by
  -- the selected rows
  have hrows : ∀ x : Clo, x ∈ (cs.filter (fun c => decide (c.desc =
      (if p.dropLast ≠ [] then id p.dropLast else id p)))).map
      (fun c => Clo.mk c.anc (id p) (c.depth + 1)) →
      (p ∈ T ∧ p.dropLast = [] ∧ x = ⟨id p, id p, 1⟩) ∨
      (∃ a ∈ T, a <+: p ∧ a ≠ p ∧ x = ⟨id a, id p, p.length - a.length⟩) := by
    intro x hx
    obtain ⟨c, hc, rfl⟩ := List.mem_map.1 hx
    obtain ⟨hc1, hc2⟩ := List.mem_filter.1 hc
    obtain ⟨a, ha, d, hd, e1, e2, e3, e4⟩ := (hcs c).1 hc1
    have hc2 : c.desc = (if p.dropLast ≠ [] then id p.dropLast else id p) := by simpa using hc2
    by_cases htop : p.dropLast = []
    · left
      rw [if_neg (by simpa using htop)] at hc2
      have hdp : d = p := hinj d (by simp [hd]) p (by simp) (by rw [← e2, hc2])
      subst hdp
      have had : a = d := by
        have hlen : d.length = 1 := by
          have := congrArg List.length htop
          have h0 := List.length_pos_iff.2 hp0
          simp at this; omega
        have ha0 := List.length_pos_iff.2 (hTne a ha)
        exact e3.eq_of_length (by have := e3.length_le; omega)
      subst had
      exact ⟨ha, htop, by rw [e1, e4]; simp⟩
    · right
      rw [if_pos htop] at hc2
      have hdp : d = p.dropLast :=
        hinj d (by simp [hd]) _ (by simp [hpar htop]) (by rw [← e2, hc2])
      subst hdp
      refine ⟨a, ha, e3.trans (List.dropLast_prefix p), ?_, ?_⟩
      · rintro rfl
        have := e3.length_le
        have h0 := List.length_pos_iff.2 hp0
        simp at this; omega
      · rw [e1, e4]
        have h1 := e3.length_le
        have h0 := List.length_pos_iff.2 hp0
        simp only [List.length_dropLast] at h1 ⊢
        congr 1; omega
  have hrows' : ∀ a ∈ T, a <+: p → a ≠ p → (⟨id a, id p, p.length - a.length⟩ : Clo) ∈
      (cs.filter (fun c => decide (c.desc =
      (if p.dropLast ≠ [] then id p.dropLast else id p)))).map
      (fun c => Clo.mk c.anc (id p) (c.depth + 1)) := by
    intro a ha hap hne
    have hpre := prefix_dropLast_of_ne hap hne
    have htop : p.dropLast ≠ [] := by
      intro h0
      rw [h0] at hpre
      exact hTne a ha (List.prefix_nil.1 hpre)
    refine List.mem_map.2 ⟨⟨id a, id p.dropLast, p.dropLast.length - a.length⟩,
      List.mem_filter.2 ⟨(hcs _).2 ⟨a, ha, _, hpar htop, rfl, rfl, hpre, rfl⟩, ?_⟩, ?_⟩
    · simp [htop]
    · have h1 := hpre.length_le
      have h0 := List.length_pos_iff.2 hp0
      simp only [List.length_dropLast] at h1 ⊢
      congr 1; omega
  by_cases hpT : p ∈ T
  · -- nothing new: every selected row's key exists already
    have hexists : ∀ (rows : List Clo), (∀ x ∈ rows, ∃ c ∈ cs, c.anc = x.anc ∧ c.desc = x.desc) →
        rows.foldl (fun acc c => insertClo c acc) cs = cs := by
      intro rows
      induction rows with
      | nil => intro _; rfl
      | cons r rs ih =>
        intro hr
        rw [List.foldl_cons]
        have hstep : insertClo r cs = cs := by
          unfold insertClo
          rw [if_pos]
          rw [List.any_eq_true]
          obtain ⟨c, hc, h1, h2⟩ := hr r (by simp)
          exact ⟨c, hc, by simp [h1, h2]⟩
        rw [hstep]
        exact ih (fun x hx => hr x (List.mem_cons_of_mem _ hx))
    have : insertClosure cs (id p) (if p.dropLast ≠ [] then id p.dropLast else id p) = cs := by
      unfold insertClosure
      apply hexists
      intro x hx
      have hself : (⟨id p, id p, 0⟩ : Clo) ∈ cs :=
        (hcs _).2 ⟨p, hpT, p, hpT, rfl, rfl, List.prefix_refl _, by simp⟩
      rcases List.mem_append.1 hx with hx | hx
      · rcases hrows x hx with ⟨_, _, rfl⟩ | ⟨a, ha, hap, _, rfl⟩
        · exact ⟨_, hself, rfl, rfl⟩
        · exact ⟨⟨id a, id p, p.length - a.length⟩,
            (hcs _).2 ⟨a, ha, p, hpT, rfl, rfl, hap, rfl⟩, rfl, rfl⟩
      · simp at hx; subst hx
        exact ⟨_, hself, rfl, rfl⟩
    rw [this]
    intro c
    rw [hcs c]
    constructor
    · rintro ⟨a, ha, d, hd, r⟩
      exact ⟨a, by simp [ha], d, by simp [hd], r⟩
    · rintro ⟨a, ha, d, hd, r⟩
      have fix : ∀ y, y ∈ T ++ [p] → y ∈ T := by
        intro y hy
        rcases List.mem_append.1 hy with hy | hy
        · exact hy
        · simp at hy; rw [hy]; exact hpT
      exact ⟨a, fix a ha, d, fix d hd, r⟩
  · intro c
    unfold insertClosure
    rw [mem_insertClo_foldl]
    · constructor
      · rintro (hc | hc)
        · obtain ⟨a, ha, d, hd, r⟩ := (hcs c).1 hc
          exact ⟨a, by simp [ha], d, by simp [hd], r⟩
        · rcases List.mem_append.1 hc with hc | hc
          · rcases hrows c hc with ⟨h1, _, _⟩ | ⟨a, ha, hap, _, rfl⟩
            · exact absurd h1 hpT
            · exact ⟨a, by simp [ha], p, by simp, rfl, rfl, hap, rfl⟩
          · simp at hc; subst hc
            exact ⟨p, by simp, p, by simp, rfl, rfl, List.prefix_refl _, by simp⟩
      · rintro ⟨a, ha, d, hd, e1, e2, e3, e4⟩
        rcases List.mem_append.1 hd with hd | hd
        · left
          have haT : a ∈ T := by
            rcases List.mem_append.1 ha with ha | ha
            · exact ha
            · simp at ha
              exact hT.anc hd (ha ▸ hp0) e3
          exact (hcs c).2 ⟨a, haT, d, hd, e1, e2, e3, e4⟩
        · right
          simp at hd; subst hd
          have hcd : c = ⟨id a, id d, d.length - a.length⟩ := by
            cases c; simp_all
          rw [hcd]
          by_cases had : a = d
          · subst had; simp
          · have haT : a ∈ T := by
              rcases List.mem_append.1 ha with ha | ha
              · exact ha
              · simp at ha; exact absurd ha had
            exact List.mem_append_left _ (hrows' a haT e3 had)
    · -- rows with equal keys are equal
      have hform : ∀ c ∈ cs ++ ((cs.filter (fun c => decide (c.desc =
          (if p.dropLast ≠ [] then id p.dropLast else id p)))).map
          (fun c => Clo.mk c.anc (id p) (c.depth + 1)) ++ [Clo.mk (id p) (id p) 0]),
          ∃ a ∈ T ++ [p], ∃ d ∈ T ++ [p], c = ⟨id a, id d, d.length - a.length⟩ := by
        intro c hc
        rcases List.mem_append.1 hc with hc | hc
        · obtain ⟨a, ha, d, hd, e1, e2, e3, e4⟩ := (hcs c).1 hc
          exact ⟨a, by simp [ha], d, by simp [hd], by cases c; simp_all⟩
        · rcases List.mem_append.1 hc with hc | hc
          · rcases hrows c hc with ⟨h1, _, _⟩ | ⟨a, ha, hap, _, rfl⟩
            · exact absurd h1 hpT
            · exact ⟨a, by simp [ha], p, by simp, rfl⟩
          · simp at hc; subst hc
            exact ⟨p, by simp, p, by simp, by simp⟩
      intro c hc c' hc' h1 h2
      obtain ⟨a, ha, d, hd, rfl⟩ := hform c hc
      obtain ⟨a', ha', d', hd', rfl⟩ := hform c' hc'
      simp only at h1 h2
      rw [hinj a ha a' ha' h1, hinj d hd d' hd' h2]

theorem insertClosure_foldl {id : Path → Int} (l : List Path) :
    ∀ {T : List Path} {cs : List Clo}, CloExact id T cs → ParentClosed T → (∀ q ∈ T, q ≠ []) →
      (∀ p ∈ l, p ≠ []) →
      (∀ l₁ p l₂, l = l₁ ++ p :: l₂ → p.dropLast ≠ [] → p.dropLast ∈ T ++ l₁) →
      (∀ a ∈ T ++ l, ∀ b ∈ T ++ l, id a = id b → a = b) →
      CloExact id (T ++ l) (l.foldl (fun cs p =>
        insertClosure cs (id p) (if p.dropLast ≠ [] then id p.dropLast else id p)) cs) ∧
      ParentClosed (T ++ l) := by
  induction l with
  | nil =>
    intro T cs hcs hT _ _ _ _
    simpa using ⟨hcs, hT⟩
  | cons p l ih =>
    intro T cs hcs hT hTne hlne hpar hinj
    rw [List.foldl_cons]
    have hp0 := hlne p (by simp)
    have hparp : p.dropLast ≠ [] → p.dropLast ∈ T := by
      intro h0
      simpa using hpar [] p l rfl h0
    have hstep := insertClosure_exact hcs hT hTne hp0 hparp (fun a ha b hb => hinj a
      (by simp at ha ⊢; tauto) b (by simp at hb ⊢; tauto))
    have hT' : ParentClosed (T ++ [p]) := by
      intro q hq h0
      rcases List.mem_append.1 hq with hq | hq
      · exact List.mem_append_left _ (hT q hq h0)
      · simp at hq; subst hq
        exact List.mem_append_left _ (hparp h0)
    have := ih hstep hT' (fun q hq => by
        rcases List.mem_append.1 hq with hq | hq
        · exact hTne q hq
        · simp at hq; subst hq; exact hp0)
      (fun q hq => hlne q (List.mem_cons_of_mem _ hq))
      (fun l₁ q l₂ hl h0 => by
        have := hpar (p :: l₁) q l₂ (by rw [hl]; rfl) h0
        simpa using this)
      (by simpa using hinj)
    simpa using this

theorem insertNode_foldl {id : Path → Int} {data : δ} (l : List (Path × Bool)) :
    ∀ {ns : List (Row δ)}, (∀ n ∈ ns, n.id = id n.path) → ((ns.map Row.id).Nodup) →
      (∀ a ∈ ns.map Row.path ++ l.map Prod.fst, ∀ b ∈ ns.map Row.path ++ l.map Prod.fst,
        id a = id b → a = b) →
      let ns' := l.foldl (fun ns e => insertNode ⟨id e.1, e.1, e.2, data⟩ ns) ns
      (∀ n ∈ ns', n.id = id n.path) ∧ (ns'.map Row.id).Nodup ∧
      (∀ q, q ∈ ns'.map Row.path ↔ q ∈ ns.map Row.path ∨ q ∈ l.map Prod.fst) ∧
      ns'.map Row.toEntry = l.foldl (fun acc e => ADB.insert ⟨e.1, e.2, data⟩ acc)
        (ns.map Row.toEntry) := by
  induction l with
  | nil =>
    intro ns h1 h2 _
    exact ⟨h1, h2, by simp, rfl⟩
  | cons e l ih =>
    intro ns hid hnd hinj
    simp only [List.foldl_cons]
    have hiff : ns.any (fun n => decide (n.id = id e.1)) = true ↔ e.1 ∈ ns.map Row.path := by
      rw [List.any_eq_true]
      constructor
      · rintro ⟨n, hn, hn2⟩
        have hn2 : n.id = id e.1 := by simpa using hn2
        have := hinj n.path (by simp only [List.mem_append]; exact Or.inl (List.mem_map_of_mem hn))
          e.1 (by simp) (by rw [← hid n hn, hn2])
        rw [← this]
        exact List.mem_map_of_mem hn
      · intro hm
        obtain ⟨n, hn, hn2⟩ := List.mem_map.1 hm
        exact ⟨n, hn, by simp [hid n hn, hn2]⟩
    have hiff2 : (ns.map Row.toEntry).any (fun x => decide (x.path = e.1)) = true ↔
        e.1 ∈ ns.map Row.path := by
      rw [List.any_eq_true]
      constructor
      · rintro ⟨x, hx, hx2⟩
        obtain ⟨n, hn, rfl⟩ := List.mem_map.1 hx
        exact List.mem_map.2 ⟨n, hn, of_decide_eq_true hx2⟩
      · intro hm
        obtain ⟨n, hn, hn2⟩ := List.mem_map.1 hm
        exact ⟨n.toEntry, List.mem_map_of_mem hn, decide_eq_true hn2⟩
    by_cases hm : e.1 ∈ ns.map Row.path
    · have s1 : insertNode ⟨id e.1, e.1, e.2, data⟩ ns = ns := by
        unfold insertNode; rw [if_pos (hiff.2 hm)]
      have s2 : ADB.insert ⟨e.1, e.2, data⟩ (ns.map Row.toEntry) = ns.map Row.toEntry := by
        unfold ADB.insert; rw [if_pos (hiff2.2 hm)]
      rw [s1, s2]
      obtain ⟨r1, r2, r3, r4⟩ := ih hid hnd (fun a ha b hb => hinj a
        (by simp only [List.mem_append, List.map_append, List.map_cons, List.map_nil, List.mem_cons] at ha ⊢; tauto) b (by simp only [List.mem_append, List.map_append, List.map_cons, List.map_nil, List.mem_cons] at hb ⊢; tauto))
      refine ⟨r1, r2, ?_, r4⟩
      intro q
      rw [r3 q]
      simp only [List.map_cons, List.mem_cons]
      constructor
      · rintro (h | h)
        · exact Or.inl h
        · exact Or.inr (Or.inr h)
      · rintro (h | rfl | h)
        · exact Or.inl h
        · exact Or.inl hm
        · exact Or.inr h
    · have s1 : insertNode ⟨id e.1, e.1, e.2, data⟩ ns = ns ++ [⟨id e.1, e.1, e.2, data⟩] := by
        unfold insertNode; rw [if_neg (fun h => hm (hiff.1 h))]
      have s2 : ADB.insert ⟨e.1, e.2, data⟩ (ns.map Row.toEntry)
          = (ns ++ [(⟨id e.1, e.1, e.2, data⟩ : Row δ)]).map Row.toEntry := by
        unfold ADB.insert; rw [if_neg (fun h => hm (hiff2.1 h))]
        simp [Row.toEntry]
      rw [s1, s2]
      obtain ⟨r1, r2, r3, r4⟩ := ih (ns := ns ++ [⟨id e.1, e.1, e.2, data⟩])
        (by
          intro n hn
          rcases List.mem_append.1 hn with hn | hn
          · exact hid n hn
          · simp at hn; subst hn; rfl)
        (by
          rw [List.map_append, List.nodup_append]
          refine ⟨hnd, by simp, ?_⟩
          intro a ha b hb
          simp at hb; subst hb
          rintro rfl
          apply hm
          apply hiff.1
          rw [List.any_eq_true]
          obtain ⟨n, hn, hn2⟩ := List.mem_map.1 ha
          exact ⟨n, hn, by simpa using hn2⟩)
        (fun a ha b hb => hinj a (by simp only [List.mem_append, List.map_append, List.map_cons, List.map_nil, List.mem_cons] at ha ⊢; tauto) b (by simp only [List.mem_append, List.map_append, List.map_cons, List.map_nil, List.mem_cons] at hb ⊢; tauto))
      refine ⟨r1, r2, ?_, r4⟩
      intro q
      rw [r3 q]
      simp only [List.map_append, List.map_cons, List.map_nil, List.mem_append, List.mem_cons,
        List.not_mem_nil, or_false, or_assoc]

theorem mem_parentsOf {paths : List Path} {q : Path} :
    q ∈ parentsOf paths ↔ q ≠ [] ∧ ∃ p ∈ paths, p.dropLast = q := by
  have key : ∀ (l : List Path) (acc : List Path),
      q ∈ l.foldl (fun acc p => if p.dropLast ≠ [] then setAdd p.dropLast acc else acc) acc ↔
        q ∈ acc ∨ (q ≠ [] ∧ ∃ p ∈ l, p.dropLast = q) := by
    intro l
    induction l with
    | nil => intro acc; simp
    | cons p l ih =>
      intro acc
      rw [List.foldl_cons, ih]
      by_cases h0 : p.dropLast = []
      · rw [if_neg (by simpa using h0)]
        simp only [List.mem_cons, exists_eq_or_imp]
        constructor
        · rintro (h | ⟨h, h'⟩)
          · exact Or.inl h
          · exact Or.inr ⟨h, Or.inr h'⟩
        · rintro (h | ⟨h, h' | h'⟩)
          · exact Or.inl h
          · exact absurd (h'.symm.trans h0) h
          · exact Or.inr ⟨h, h'⟩
      · rw [if_pos h0, mem_setAdd]
        simp only [List.mem_cons, exists_eq_or_imp]
        constructor
        · rintro ((h | h) | ⟨h, h'⟩)
          · exact Or.inr ⟨h ▸ h0, Or.inl h.symm⟩
          · exact Or.inl h
          · exact Or.inr ⟨h, Or.inr h'⟩
        · rintro (h | ⟨h, h' | h'⟩)
          · exact Or.inl (Or.inr h)
          · exact Or.inl (Or.inl h'.symm)
          · exact Or.inr ⟨h, h'⟩
  unfold parentsOf
  rw [key]
  simp

/-- The parent of each path of a batch is known or in the batch. -/
def ParentsKnown (known : List Path) (batch : List Path) : Prop :=
  ∀ p ∈ batch, p ≠ [] ∧ (p.dropLast ≠ [] → p.dropLast ∈ known ∨ p.dropLast ∈ batch)

theorem sortDepth_before {batch : List (Path × Bool)} {l₁ l₂ : List Path} {p : Path}
    (hs : (sortDepth Prod.fst batch).map Prod.fst = l₁ ++ p :: l₂) (h0 : p.dropLast ≠ [])
    (hm : p.dropLast ∈ batch.map Prod.fst) : p.dropLast ∈ l₁ := by
  have hsorted : ((sortDepth Prod.fst batch).map Prod.fst).Pairwise
      (fun a b => a.length ≤ b.length) := by
    have := sortBy_sorted (le := fun a b : Path × Bool => decide (a.1.length ≤ b.1.length))
      (fun a b c h1 h2 => by simp at *; omega) (fun a b => by simp; omega) batch
    rw [List.pairwise_map]
    simpa [sortDepth] using this
  have hm' : p.dropLast ∈ (sortDepth Prod.fst batch).map Prod.fst := by
    obtain ⟨e, he, he2⟩ := List.mem_map.1 hm
    exact List.mem_map.2 ⟨e, by simpa [sortDepth] using he, he2⟩
  rw [hs] at hm' hsorted
  rcases List.mem_append.1 hm' with h | h
  · exact h
  · exfalso
    have hp0 : p ≠ [] := by rintro rfl; simp at h0
    have hlt : p.dropLast.length < p.length := by
      have := List.length_pos_iff.2 hp0
      simp; omega
    rw [List.pairwise_append] at hsorted
    rcases List.mem_cons.1 h with h | h
    · rw [h] at hlt; omega
    · have := (List.pairwise_cons.1 hsorted.2.1).1 _ h
      omega

theorem addCore_refine {h : Str → Int} {salt : Path → Str} {db : DB δ}
    {batch : List (Path × Bool)} {data : δ} (w : db.WF h)
    (hpar : ParentsKnown (ADB.paths db.abs) (batch.map Prod.fst))
    (hinj : ∀ a ∈ ADB.paths db.abs ++ batch.map Prod.fst,
      ∀ b ∈ ADB.paths db.abs ++ batch.map Prod.fst,
      getPathId h (addCore h salt db batch data).coll a
        = getPathId h (addCore h salt db batch data).coll b → a = b) :
    (addCore h salt db batch data).WF h ∧
      (addCore h salt db batch data).abs = ADB.addCore db.abs batch data ∧
      (∀ q, q ∈ ADB.paths (addCore h salt db batch data).abs ↔
        q ∈ ADB.paths db.abs ∨ q ∈ batch.map Prod.fst) := by
  -- the coll component of the result
  have hcoll0 : ∀ (d : DB δ) (l : List Path), (markDirectory h d l).coll = d.coll := by
    intro d l
    unfold markDirectory
    generalize l.map (getPathId h d.coll) = ids
    induction ids generalizing d with
    | nil => rfl
    | cons x xs ih => simp only [List.foldl_cons]; rw [ih]
  have hcoll : (addCore h salt db batch data).coll = collLoop h salt db.nodes
      ((sortDepth Prod.fst batch).map Prod.fst)
      (((sortDepth Prod.fst batch).map Prod.fst).length + 1) db.coll := by
    unfold addCore
    rw [hcoll0]
  rw [hcoll] at hinj
  have hpaths : ADB.paths db.abs = db.nodes.map Row.path := by
    simp [ADB.paths, abs, Function.comp_def]
  have hnd : (db.nodes.map Row.id).Nodup := by
    have := w.idNodup
    simpa [keys, Function.comp_def] using this
  have hids : ∀ n ∈ db.nodes, n.id = getPathId h db.coll n.path :=
    fun n hn => w.idEq _ (mem_keys hn)
  obtain ⟨extra, _, _, hkeep⟩ := collLoop_keeps (h := h) (salt := salt)
    (paths := (sortDepth Prod.fst batch).map Prod.fst) hnd
    (((sortDepth Prod.fst batch).map Prod.fst).length + 1) db.coll hids
  have hmemsort : ∀ q, q ∈ (sortDepth Prod.fst batch).map Prod.fst ↔ q ∈ batch.map Prod.fst := by
    intro q
    simp [sortDepth]
  unfold addCore
  simp only
  generalize hcl : collLoop h salt db.nodes ((sortDepth Prod.fst batch).map Prod.fst)
      (((sortDepth Prod.fst batch).map Prod.fst).length + 1) db.coll = coll at *
  rw [hpaths] at hinj hpar
  have hinj' : ∀ a ∈ db.nodes.map Row.path ++ (sortDepth Prod.fst batch).map Prod.fst,
      ∀ b ∈ db.nodes.map Row.path ++ (sortDepth Prod.fst batch).map Prod.fst,
      getPathId h coll a = getPathId h coll b → a = b := by
    intro a ha b hb
    apply hinj
    · rw [List.mem_append, ← hmemsort]; exact List.mem_append.1 ha
    · rw [List.mem_append, ← hmemsort]; exact List.mem_append.1 hb
  obtain ⟨n1, n2, n3, n4⟩ := insertNode_foldl (id := getPathId h coll) (data := data)
    (sortDepth Prod.fst batch) hkeep hnd hinj'
  generalize hns : (sortDepth Prod.fst batch).foldl (fun ns e =>
    insertNode ⟨getPathId h coll e.1, e.1, e.2, data⟩ ns) db.nodes = ns at *
  -- closure
  have hT0 : CloExact (getPathId h coll) (db.nodes.map Row.path) db.closure := by
    intro c
    rw [w.clo c]
    constructor
    · rintro ⟨a, ha, d, hd, r⟩
      obtain ⟨n, hn, rfl⟩ := List.mem_map.1 ha
      obtain ⟨m, hm, rfl⟩ := List.mem_map.1 hd
      refine ⟨n.path, List.mem_map_of_mem hn, m.path, List.mem_map_of_mem hm, ?_⟩
      rw [← hkeep n hn, ← hkeep m hm]
      exact r
    · rintro ⟨a, ha, d, hd, r⟩
      obtain ⟨n, hn, rfl⟩ := List.mem_map.1 ha
      obtain ⟨m, hm, rfl⟩ := List.mem_map.1 hd
      refine ⟨(n.id, n.path), mem_keys hn, (m.id, m.path), mem_keys hm, ?_⟩
      rw [← hkeep n hn, ← hkeep m hm] at r
      exact r
  have hPC0 : ParentClosed (db.nodes.map Row.path) := by
    intro p hp h0
    obtain ⟨n, hn, rfl⟩ := List.mem_map.1 hp
    have := w.parent _ (mem_keys hn) h0
    simpa [keys, Function.comp_def] using this
  have hne0 : ∀ q ∈ db.nodes.map Row.path, q ≠ [] := by
    intro p hp
    obtain ⟨n, hn, rfl⟩ := List.mem_map.1 hp
    exact w.ne _ (mem_keys hn)
  obtain ⟨c1, c2⟩ := insertClosure_foldl (id := getPathId h coll)
    ((sortDepth Prod.fst batch).map Prod.fst) hT0 hPC0 hne0
    (fun p hp => (hpar p ((hmemsort p).1 hp)).1)
    (by
      intro l₁ p l₂ hl h0
      have hp : p ∈ batch.map Prod.fst := (hmemsort p).1 (by rw [hl]; simp)
      rcases (hpar p hp).2 h0 with hk | hk
      · exact List.mem_append_left _ hk
      · exact List.mem_append_right _ (sortDepth_before hl h0 hk))
    hinj'
  generalize hcs : ((sortDepth Prod.fst batch).map Prod.fst).foldl (fun cs p =>
    insertClosure cs (getPathId h coll p)
      (if p.dropLast ≠ [] then getPathId h coll p.dropLast else getPathId h coll p))
    db.closure = cs at *
  have hTmem : ∀ q, q ∈ ns.map Row.path ↔
      q ∈ db.nodes.map Row.path ++ (sortDepth Prod.fst batch).map Prod.fst := by
    intro q; rw [n3 q, List.mem_append]
  have hwf : (DB.mk ns cs coll).WF h := by
    refine ⟨?_, ?_, ?_, ?_, ?_⟩
    · intro k hk
      obtain ⟨n, hn, rfl⟩ := List.mem_map.1 hk
      have := (hTmem n.path).1 (List.mem_map_of_mem hn)
      rcases List.mem_append.1 this with h' | h'
      · exact hne0 _ h'
      · exact (hpar _ ((hmemsort _).1 h')).1
    · simpa [keys, Function.comp_def] using n2
    · intro k hk
      obtain ⟨n, hn, rfl⟩ := List.mem_map.1 hk
      exact n1 n hn
    · intro k hk h0
      obtain ⟨n, hn, rfl⟩ := List.mem_map.1 hk
      have h1 := c2 n.path ((hTmem n.path).1 (List.mem_map_of_mem hn)) h0
      have h2 := (hTmem _).2 h1
      simpa [keys, Function.comp_def] using h2
    · intro c
      rw [c1 c]
      constructor
      · rintro ⟨a, ha, d, hd, r⟩
        obtain ⟨n, hn, rfl⟩ := List.mem_map.1 ((hTmem a).2 ha)
        obtain ⟨m, hm, rfl⟩ := List.mem_map.1 ((hTmem d).2 hd)
        refine ⟨(n.id, n.path), List.mem_map_of_mem (f := fun n : Row δ => (n.id, n.path)) hn,
          (m.id, m.path), List.mem_map_of_mem (f := fun n : Row δ => (n.id, n.path)) hm, ?_⟩
        rw [← n1 n hn, ← n1 m hm] at r
        exact r
      · rintro ⟨a, ha, d, hd, r⟩
        obtain ⟨n, hn, rfl⟩ := List.mem_map.1 ha
        obtain ⟨m, hm, rfl⟩ := List.mem_map.1 hd
        refine ⟨n.path, (hTmem _).1 (List.mem_map_of_mem hn), m.path,
          (hTmem _).1 (List.mem_map_of_mem hm), ?_⟩
        rw [← n1 n hn, ← n1 m hm]
        exact r
  have hpathsAbs : ADB.paths (DB.mk ns cs coll).abs = ns.map Row.path := by
    simp [ADB.paths, abs, Function.comp_def]
  obtain ⟨s, habs⟩ := markDirectory_refine (h := h) (DB.mk ns cs coll)
    (parentsOf ((sortDepth Prod.fst batch).map Prod.fst)) hwf (by
      intro p hp
      apply hwf.idOK
      rw [hpathsAbs, hTmem]
      obtain ⟨hp0, q, hq, rfl⟩ := mem_parentsOf.1 hp
      exact c2 q (List.mem_append_right _ hq) hp0)
  refine ⟨s.wf hwf, ?_, ?_⟩
  · rw [habs]
    simp only [ADB.addCore]
    congr 1
  · intro q
    rw [paths_abs, s.keys, ← paths_abs, hpathsAbs, n3 q, hmemsort, hpaths]

end DB
end Verif
