import Verif.Daemon
import Verif.Props.C07_Increment
/-
C43: no opening is lost while the database is locked.
-/
namespace Verif
open ADB ALocal

/-- A change of the profile database. -/
inductive DBChange
  | decay (c : Rat)
  | count (ps : List Path)
  | other (f : ALocal → ALocal)

def DBChange.apply (a : ALocal) : DBChange → ALocal
  | decay c => ALocal.adjustAll a c
  | count ps => ALocal.increment a ps 1
  | other f => f a

/-- The openings that a list of changes counts. -/
def countedBy (l : List DBChange) : List Path :=
  l.flatMap (fun c => match c with | .count ps => ps | _ => [])

/-- The openings in rounds. -/
def roundOpenings (rs : List DRound) : List Path := rs.flatMap DRound.counted

/-- What the other processes do in a list of changes. -/
def othersIn (l : List DBChange) : List (ALocal → ALocal) :=
  l.filterMap (fun c => match c with | .other f => some f | _ => none)

/-- `l` is a possible account of what happened in the rounds `rs`: other processes did
what they did, in order, and every adjustment was by the same factor. -/
def Account (decay : Rat) (rs : List DRound) (l : List DBChange) : Prop :=
  (othersIn l).Sublist (rs.map DRound.other) ∧ ∀ c, .decay c ∈ l → c = decay

/-- The full claim C43: after any rounds, what happened to the database is a sequence of
changes in which every opening is counted once, except for those that are still pending. -/
def C43Claim : Prop := ∀ (decay : Rat) (a : ALocal) (t : Int) (rs : List DRound),
  ∃ l : List DBChange, Account decay rs l ∧
    (daemonRun decay ⟨a, none, [], t⟩ rs).view = l.foldl DBChange.apply a ∧
    countedBy l ++ (daemonRun decay ⟨a, none, [], t⟩ rs).pending = roundOpenings rs

theorem arrive_log {decay : Rat} {a : ALocal} {s : DaemonState} {r : DRound} {l : List DBChange}
    {seen : List Path} {rs : List DRound} (hac : Account decay rs l)
    (hv : s.view = l.foldl DBChange.apply a) (hp : countedBy l ++ s.pending = seen) :
    ∃ l', Account decay (rs ++ [r]) l' ∧ (s.arrive r).view = l'.foldl DBChange.apply a ∧
      countedBy l' ++ (s.arrive r).pending = seen ++ r.counted := by
  cases hw : s.work with
  | none =>
    refine ⟨l ++ [.other r.other], ⟨?_, ?_⟩, ?_, ?_⟩
    · unfold othersIn
      rw [List.filterMap_append, List.map_append]
      exact hac.1.append (List.Sublist.refl _)
    · intro c hc
      rcases List.mem_append.1 hc with hc | hc
      · exact hac.2 c hc
      · simp at hc
    · rw [List.foldl_append, ← hv]
      simp [DaemonState.arrive, DaemonState.view, hw, DBChange.apply]
    · rw [← hp]; simp [countedBy, DaemonState.arrive]
  | some w =>
    refine ⟨l, ⟨?_, hac.2⟩, ?_, ?_⟩
    · rw [List.map_append]
      exact hac.1.trans (List.sublist_append_left _ _)
    · rw [← hv]
      simp [DaemonState.arrive, DaemonState.view, hw]
    · rw [← hp]; simp [DaemonState.arrive]

theorem account_snoc {decay : Rat} {rs : List DRound} {l : List DBChange} (h : Account decay rs l)
    {c : DBChange} (hc : c = .decay decay ∨ ∃ ps, c = .count ps) : Account decay rs (l ++ [c]) := by
  constructor
  · unfold othersIn
    rw [List.filterMap_append]
    have : List.filterMap (fun c : DBChange => match c with | .other f => some f | _ => none) [c] = [] := by
      rcases hc with rfl | ⟨ps, rfl⟩ <;> rfl
    rw [this, List.append_nil]
    exact h.1
  · intro d hd
    rcases List.mem_append.1 hd with hd | hd
    · exact h.2 d hd
    · rcases hc with rfl | ⟨ps, rfl⟩
      · simpa using hd
      · simp at hd

theorem pass_log {decay : Rat} {a : ALocal} {s1 : DaemonState} {r : DRound} {l1 : List DBChange}
    {seen : List Path} {rs : List DRound} (hac : Account decay rs l1)
    (hv1 : s1.view = l1.foldl DBChange.apply a) (hp1 : countedBy l1 ++ s1.pending = seen)
    (hr : r.locked ≠ .commit) :
    ∃ l', Account decay rs l' ∧ (s1.pass decay r).view = l'.foldl DBChange.apply a ∧
      countedBy l' ++ (s1.pass decay r).pending = seen := by
  unfold DaemonState.pass
  dsimp only
  simp only [if_neg hr]
  by_cases hd : s1.lastAdjust + adjustInterval ≤ r.now
  · simp only [hd, decide_true, Bool.true_and, if_true, decide_eq_true_eq]
    split
    · exact ⟨l1, hac, hv1, hp1⟩
    · have hv2 : ALocal.adjustAll s1.view decay = (l1 ++ [DBChange.decay decay]).foldl DBChange.apply a := by
        rw [List.foldl_append, ← hv1]; rfl
      have hc2 : countedBy (l1 ++ [.decay decay]) = countedBy l1 := by simp [countedBy]
      have hac2 := account_snoc hac (c := .decay decay) (Or.inl rfl)
      split
      · exact ⟨l1 ++ [DBChange.decay decay], hac2, hv2, by rw [hc2]; exact hp1⟩
      · split
        · exact ⟨l1 ++ [DBChange.decay decay], hac2, hv2, by rw [hc2]; exact hp1⟩
        · refine ⟨l1 ++ [DBChange.decay decay] ++ [DBChange.count s1.pending], account_snoc hac2 (Or.inr ⟨_, rfl⟩), ?_, ?_⟩
          · rw [List.foldl_append, ← hv2]; rfl
          · rw [List.append_nil, ← hp1]; simp [countedBy]
  · simp only [hd, decide_false, Bool.false_and, if_false, Bool.false_eq_true]
    split
    · exact ⟨l1, hac, hv1, hp1⟩
    · refine ⟨l1 ++ [.count s1.pending], account_snoc hac (Or.inr ⟨_, rfl⟩), ?_, ?_⟩
      · rw [List.foldl_append, ← hv1]; rfl
      · rw [List.append_nil, ← hp1]; simp [countedBy]

/-- If the database is never locked at the commit of the increments, every opening is
counted exactly once, in order, no matter how often and where else the daemon fails and retries.
Missing from C43: a locked commit. -/
theorem C43_once_partial (decay : Rat) (a : ALocal) (t : Int) (rs : List DRound)
    (h : ∀ r ∈ rs, r.locked ≠ .commit) :
    ∃ l : List DBChange, Account decay rs l ∧
      (daemonRun decay ⟨a, none, [], t⟩ rs).view = l.foldl DBChange.apply a ∧
      countedBy l ++ (daemonRun decay ⟨a, none, [], t⟩ rs).pending = roundOpenings rs := by
  have key : ∀ (rs before : List DRound) (s : DaemonState) (l : List DBChange) (seen : List Path),
      (∀ r ∈ rs, r.locked ≠ .commit) → Account decay before l →
      s.view = l.foldl DBChange.apply a → countedBy l ++ s.pending = seen →
      ∃ l', Account decay (before ++ rs) l' ∧ (daemonRun decay s rs).view = l'.foldl DBChange.apply a ∧
        countedBy l' ++ (daemonRun decay s rs).pending = seen ++ roundOpenings rs := by
    intro rs
    induction rs with
    | nil => intro before s l seen _ hac hv hp; exact ⟨l, by simpa using hac, hv, by simpa [roundOpenings, daemonRun] using hp⟩
    | cons r rs ih =>
      intro before s l seen hr hac hv hp
      obtain ⟨l', hac', hv', hp'⟩ := arrive_log (r := r) hac hv hp
      obtain ⟨l2, hac2, hv2, hp2⟩ := pass_log hac' hv' hp' (hr r (by simp))
      obtain ⟨l3, h1, h2, h3⟩ := ih _ _ l2 _ (fun r h => hr r (by simp [h])) hac2 hv2 hp2
      refine ⟨l3, by simpa using h1, h2, ?_⟩
      rw [show roundOpenings (r :: rs) = r.counted ++ roundOpenings rs from rfl, ← List.append_assoc]
      exact h3
  simpa using key rs [] ⟨a, none, [], t⟩ [] [] h ⟨by simp [othersIn], by simp⟩ rfl rfl

/-- Nothing is pending after a round in which the database is not locked. -/
theorem C43_applied (decay : Rat) (s : DaemonState) (r : DRound) (h : r.locked = .never) :
    (daemonRound decay s r).pending = [] ∧ (daemonRound decay s r).work = none := by
  unfold daemonRound DaemonState.pass
  simp [h]

/-! ### In terms of priorities -/

/-- The recorded priority of a path. -/
def prioOf (a : ALocal) (p : Path) : Option Rat := (info a p).map (fun e => e.data.priority)

theorem prioOf_view (a : ALocal) (p : Path) :
    prioOf a p = ((vPrio a).find? (fun y => decide (y.1 = p))).map Prod.snd := by
  unfold prioOf info vPrio view
  rw [List.find?_map, Option.map_map]
  rfl

theorem find_vStep {γ : Type} (g : List γ → γ) (v : List (Path × γ)) {p q : Path} (h : p ≠ q) :
    (vStep g v q).find? (fun y => decide (y.1 = p)) = v.find? (fun y => decide (y.1 = p)) := by
  unfold vStep
  generalize hk : (kids v q).map Prod.snd = k
  clear hk
  induction v with
  | nil => rfl
  | cons y v ih =>
    rw [List.map_cons, List.find?_cons, List.find?_cons]
    by_cases hy : y.1 = q
    · rw [if_pos hy]
      have : y.1 ≠ p := fun e => h (e ▸ hy)
      have h1 : decide (y.1 = p) = false := by simpa using this
      dsimp only
      rw [h1]
      exact ih
    · rw [if_neg hy]
      cases decide (y.1 = p) with
      | true => rfl
      | false => exact ih

/-- `increment` and a path with none of the given paths below it. -/
theorem prioOf_increment (a : ALocal) (ps : List Path) (x : Rat) {p : Path}
    (h : ∀ q ∈ ps, p <+: q → p = q) :
    prioOf (ALocal.increment a ps x) p = (prioOf a p).map (fun y => y + x * (ps.count p : Rat)) := by
  rw [prioOf_view, prioOf_view]
  unfold ALocal.increment vPrio
  rw [view_updateAgg (agg := aggPriority) (g := List.sum) (fun _ _ => rfl)]
  have hn : p ∉ pathAncestry (DB.parentsOf ps) := by
    intro hm
    obtain ⟨q, hq, hpq⟩ := mem_pathAncestry.1 hm
    obtain ⟨hq0, r, hr, hrq⟩ := DB.mem_parentsOf.1 hq
    have hpre : p <+: r.dropLast := by
      rcases hpq with rfl | ⟨_, hpq⟩
      · rw [hrq]; exact List.prefix_refl _
      · rw [hrq]; exact hpq
    have := h r hr (hpre.trans (List.dropLast_prefix r))
    subst this
    have h1 := hpre.length_le
    rw [List.length_dropLast] at h1
    have : p = [] := by
      rw [← List.length_eq_zero_iff]; omega
    subst this
    exact hq0 (by rw [← hrq]; rfl)
  have hfold : ∀ (l : List Path) (v : List (Path × Rat)), p ∉ l →
      (l.foldl (vStep List.sum) v).find? (fun y => decide (y.1 = p)) = v.find? (fun y => decide (y.1 = p)) := by
    intro l
    induction l with
    | nil => intro v _; rfl
    | cons q l ih =>
      intro v hm
      rw [List.foldl_cons, ih _ (fun h => hm (by simp [h])), find_vStep _ _ (fun e => hm (by simp [e]))]
  have hw := view_updateWhere_add a ps x
  unfold vPrio at hw
  rw [hfold _ _ hn, hw, List.find?_map, Option.map_map, Option.map_map]
  have : ((fun y : Path × Rat => decide (y.1 = p)) ∘ fun y : Path × Rat => (y.1, y.2 + x * (ps.count y.1 : Rat)))
      = fun y : Path × Rat => decide (y.1 = p) := rfl
  rw [this]
  cases hf : (view PData.priority a).find? (fun y => decide (y.1 = p)) with
  | none => rfl
  | some y =>
    have := List.find?_some hf
    simp only [decide_eq_true_eq] at this
    simp [this]

/-- While no adjustment is due and no other process changes the priorities, the priority of a
file has grown by the number of its openings when nothing is pending, no matter how often the
database was locked (except at the commit). -/
theorem C43_priority_partial (decay : Rat) (a : ALocal) (t : Int) (rs : List DRound)
    (h : ∀ r ∈ rs, r.locked ≠ .commit) (hd : ∀ r ∈ rs, r.now < t + adjustInterval)
    (ho : ∀ r ∈ rs, r.other = id) {p : Path} (hp : ∀ q ∈ roundOpenings rs, p <+: q → p = q)
    (hend : (daemonRun decay ⟨a, none, [], t⟩ rs).pending = []) :
    prioOf (daemonRun decay ⟨a, none, [], t⟩ rs).view p =
      (prioOf a p).map (fun y => y + ((roundOpenings rs).count p : Rat)) := by
  have key : ∀ (rs : List DRound) (s : DaemonState) (seen : List Path),
      (∀ r ∈ rs, r.locked ≠ .commit) → (∀ r ∈ rs, r.now < t + adjustInterval) → (∀ r ∈ rs, r.other = id) →
      s.lastAdjust = t → (∀ q ∈ seen ++ roundOpenings rs, p <+: q → p = q) →
      (∃ done, done ++ s.pending = seen ∧
        prioOf s.view p = (prioOf a p).map (fun y => y + (done.count p : Rat))) →
      ∃ done, done ++ (daemonRun decay s rs).pending = seen ++ roundOpenings rs ∧
        prioOf (daemonRun decay s rs).view p = (prioOf a p).map (fun y => y + (done.count p : Rat)) := by
    intro rs
    induction rs with
    | nil => intro s seen _ _ _ _ _ h; simpa [roundOpenings, daemonRun] using h
    | cons r rs ih =>
      intro s seen h1 h2 h3 hl hq hs
      have e : roundOpenings (r :: rs) = r.counted ++ roundOpenings rs := rfl
      rw [e, ← List.append_assoc] at hq ⊢
      have hstep : (daemonRound decay s r).lastAdjust = t ∧
          ∃ done, done ++ (daemonRound decay s r).pending = seen ++ r.counted ∧
            prioOf (daemonRound decay s r).view p = (prioOf a p).map (fun y => y + (done.count p : Rat)) := by
        obtain ⟨done, hd1, hd2⟩ := hs
        have hnd : ¬ (s.lastAdjust + adjustInterval ≤ r.now) := by
          have := h2 r (by simp); rw [hl]; omega
        have hv : (s.arrive r).view = s.view := by
          unfold DaemonState.view DaemonState.arrive
          rw [h3 r (by simp)]
          simp
        have hla : (s.arrive r).lastAdjust = s.lastAdjust := rfl
        have hpe : (s.arrive r).pending = s.pending ++ r.counted := rfl
        unfold daemonRound DaemonState.pass
        dsimp only
        simp only [if_neg (h1 r (by simp))]
        rw [hla]
        simp only [hnd, decide_false, Bool.false_and, if_false, Bool.false_eq_true]
        split
        · exact ⟨hl, done, by rw [← hd1]; simp [hpe], by rw [hv]; exact hd2⟩
        · refine ⟨hl, done ++ (s.pending ++ r.counted), by rw [← hd1]; simp, ?_⟩
          show prioOf (ALocal.increment (s.arrive r).view (s.arrive r).pending 1) p = _
          rw [hv, hpe, prioOf_increment]
          · rw [hd2, Option.map_map]
            congr 1
            funext y
            simp only [Function.comp, List.count_append, Rat.natCast_add, Rat.one_mul]
            rw [Rat.add_assoc]
          · intro q hqm
            apply hq q
            rw [← hd1]
            simp only [List.mem_append] at hqm ⊢
            tauto
      exact ih _ _ (fun r h => h1 r (by simp [h])) (fun r h => h2 r (by simp [h]))
        (fun r h => h3 r (by simp [h])) hstep.1 hq hstep.2
  obtain ⟨done, hd1, hd2⟩ := key rs ⟨a, none, [], t⟩ [] h hd ho rfl (by simpa using hp)
    ⟨[], rfl, by
      show prioOf a p = _
      cases prioOf a p <;> simp⟩
  rw [hend, List.append_nil, List.nil_append] at hd1
  rw [hd2, hd1]

/-! ### A locked commit -/

/-- A profile with one file. -/
def exOneFile : ALocal := [⟨[['a']], false, ⟨5, true⟩⟩]

/-- One opening; the first commit fails because another process is reading the database. -/
def exLockedCommit : List DRound := [⟨[[['a']]], 0, .commit, id⟩, ⟨[], 0, .never, id⟩]

/-- The increment stays in the open transaction and is made once more: one opening counts
twice. -/
theorem C43_commit_twice : roundOpenings exLockedCommit = [[['a']]] ∧
    prioOf (daemonRun 1 ⟨exOneFile, none, [], 0⟩ exLockedCommit).com [['a']] = some 7 := by
  decide +kernel

theorem C43_fails : ¬ C43Claim := by
  intro h
  obtain ⟨l, ⟨ho, hd⟩, hv, hc⟩ := h 1 exOneFile 0 exLockedCommit
  have hpend : (daemonRun 1 ⟨exOneFile, none, [], 0⟩ exLockedCommit).pending = [] := by decide +kernel
  rw [hpend, List.append_nil, C43_commit_twice.1] at hc
  have hview : prioOf (daemonRun 1 ⟨exOneFile, none, [], 0⟩ exLockedCommit).view [['a']] = some 7 := by
    decide +kernel
  have key : ∀ (l : List DBChange) (a : ALocal), (∀ f ∈ othersIn l, f = id) → (∀ c, .decay c ∈ l → c = 1) →
      (∀ q ∈ countedBy l, q = [['a']]) →
      prioOf (l.foldl DBChange.apply a) [['a']] =
        (prioOf a [['a']]).map (fun y => y + ((countedBy l).count [['a']] : Rat)) := by
    intro l
    induction l with
    | nil => intro a _ _ _; cases h : prioOf a [['a']] <;> simp [countedBy, h]
    | cons c l ih =>
      intro a h1 h2 h3
      rw [List.foldl_cons]
      cases c with
      | decay c =>
        have hc : c = 1 := h2 c (by simp)
        have hadj : DBChange.apply a (.decay c) = a := by
          subst hc
          simp [DBChange.apply, ALocal.adjustAll]
        rw [hadj]
        exact ih a h1 (fun c hc => h2 c (by simp [hc])) h3
      | count ps =>
        have e : countedBy (.count ps :: l) = ps ++ countedBy l := rfl
        rw [e] at h3 ⊢
        rw [ih _ h1 (fun c hc => h2 c (by simp [hc])) (fun q hq => h3 q (by simp [hq]))]
        rw [show DBChange.apply a (.count ps) = ALocal.increment a ps 1 from rfl,
          prioOf_increment _ _ _ (fun q hq _ => (h3 q (by simp [hq])).symm), Option.map_map]
        congr 1
        funext y
        simp only [Function.comp, List.count_append, Rat.natCast_add, Rat.one_mul]
        rw [Rat.add_assoc]
      | other f =>
        have hf : f = id := h1 f (by simp [othersIn])
        subst hf
        exact ih a (fun g hg => h1 g (by simp [othersIn] at hg ⊢; exact Or.inr hg))
          (fun c hc => h2 c (by simp [hc])) h3
  rw [hv, key l exOneFile ?_ hd (by rw [hc]; simp), hc] at hview
  · revert hview
    decide +kernel
  · intro f hf
    have := ho.subset hf
    simpa [exLockedCommit] using this

/-- Rounds with every other kind of failure meet the hypotheses. -/
def exRetries : List DRound := [⟨[[['a']]], 0, .increment, id⟩, ⟨[[['a']]], 10, .increment, id⟩, ⟨[], 20, .never, id⟩]

example : (∀ r ∈ exRetries, r.locked ≠ .commit) ∧ (∀ r ∈ exRetries, r.now < 0 + adjustInterval) := by decide
example : prioOf (daemonRun 1 ⟨exOneFile, none, [], 0⟩ exRetries).com [['a']] = some 7 := by decide +kernel

end Verif
