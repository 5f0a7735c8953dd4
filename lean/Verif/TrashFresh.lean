import Verif.Props.C21_Trash
import Verif.Steady
/-
What `trash_files` moves to the trash is there as it was, and has the time of that moment.
-/
namespace Verif
open Prog OSM Call FSTools WM

/-- The same file or link, or also a directory. -/
def Alike (n n' : Node) : Prop := n'.isDir = n.isDir ∧ (n.isDir = false → n' = n)

theorem Alike.refl (n : Node) : Alike n n := ⟨rfl, fun _ => rfl⟩

theorem Alike.trans {a b c : Node} (h1 : Alike a b) (h2 : Alike b c) : Alike a c :=
  ⟨h2.1.trans h1.1, fun h => by
    have e1 := h1.2 h
    subst e1
    exact h2.2 h⟩

theorem touch_isDir (n : Node) (m : Int) : (n.touch m).isDir = n.isDir := by cases n <;> rfl

theorem touch_touch (n : Node) (m m' : Int) : (n.touch m).touch m' = n.touch m' := by cases n <;> rfl

/-- `update_mtime` gives the path the present time; it may also give it to a directory to which the path is a link. -/
theorem wp_updateMtime_now {p : Path} {s : OS} (w : s.fs.WF) (hp : p ≠ []) {n : Node} (hn : s.fs.get p = some n) :
    wp (updateMtime p) (fun _ s' =>
      (n.isLink = false → s'.fs.get p = some (n.touch (s.clk s.tick)) ∧ s.tick < s'.tick) ∧
      ∀ x m, s.fs.get x = some m → s'.fs.get x = some m ∨
        (s'.fs.get x = some (m.touch (s.clk s.tick)) ∧ s.tick < s'.tick)) (fun _ _ => True) s := by
  have up : ∀ q, q ≠ [] → (n.isLink = false → q = p) → ∀ k, s.fs.get q = some k →
      wp (update q (fun n now => n.touch now)) (fun _ s' =>
        (n.isLink = false → s'.fs.get p = some (n.touch (s.clk s.tick)) ∧ s.tick < s'.tick) ∧
        ∀ x m, s.fs.get x = some m → s'.fs.get x = some m ∨
          (s'.fs.get x = some (m.touch (s.clk s.tick)) ∧ s.tick < s'.tick)) (fun _ _ => True) s := by
    intro q hq hqp k hk
    unfold update
    apply wp_op
    · trivial
    · intro fs' h
      rw [hk] at h
      cases h
      refine ⟨?_, ?_⟩
      · intro hl
        have := hqp hl
        subst this
        rw [hn] at hk; cases hk
        refine ⟨?_, Nat.lt_succ_self _⟩
        show FS.get (FS.set _ _ _) _ = _
        rw [FS.get_set_self _ hq]
      · intro x m hx
        by_cases hxq : x = q
        · subst hxq
          rw [hx] at hk; cases hk
          right
          refine ⟨?_, Nat.lt_succ_self _⟩
          show FS.get (FS.set _ _ _) _ = _
          rw [FS.get_set_self _ hq]
        · left
          show FS.get (FS.set _ _ _) _ = _
          rw [FS.get_set_ne _ hxq]; exact hx
    · intro e _; trivial
  unfold updateMtime
  rw [wp_bind, wp_ask]
  by_cases hl : n.isLink = false
  · rw [FS.stat_nonlink (w.pathErr hn) hn hl]
    have : touchAt p (.ok (p, n)) = update p (fun n now => n.touch now) := by
      cases p with
      | nil => exact absurd rfl hp
      | cons a l => cases n <;> rfl
    rw [this]
    exact up p hp (fun _ => rfl) n hn
  · have same : (n.isLink = false → s.fs.get p = some (n.touch (s.clk s.tick)) ∧ s.tick < s.tick) ∧
        ∀ x m, s.fs.get x = some m → s.fs.get x = some m ∨
          (s.fs.get x = some (m.touch (s.clk s.tick)) ∧ s.tick < s.tick) :=
      ⟨fun h => absurd h hl, fun x m h => Or.inl h⟩
    cases hst : s.fs.stat p with
    | error e => exact same
    | ok r =>
      obtain ⟨q, k⟩ := r
      obtain ⟨h1, h2⟩ := FS.stat_ok hst
      cases k with
      | dir m b =>
        cases q with
        | nil => exact same
        | cons c q => exact up _ (by simp) (fun h => absurd h hl) _ h1
      | _ => cases q <;> exact up p hp (fun _ => rfl) n hn

/-- One round of the second loop of `trash_files`. -/
theorem wp_trashOne_now {env : Env} {names : List Str} {p : Path} {s : OS} (w : s.fs.WF) (hu : UserPath p)
    (hg : GoodPath (env.trash ++ [trashName names (p.getLastD [])])) (ht : s.fs.isDir env.trash = true)
    {n : Node} (hf : s.fs.get (env.rem ++ p) = some n) :
    wp (trashOne env names p)
      (fun _ s' => (n.isLink = false → ∃ k, s.tick ≤ k ∧ k < s'.tick ∧
          s'.fs.get (env.trash ++ [trashName names (p.getLastD [])]) = some (n.touch (s.clk k))) ∧
        (∀ u m, u ≠ [] → s.fs.get (env.rem ++ p ++ u) = some m →
          ∃ m', s'.fs.get (env.trash ++ [trashName names (p.getLastD [])] ++ u) = some m' ∧ Alike m m') ∧
        ∀ x m, ¬ env.rem ++ p <+: x → ¬ env.trash ++ [trashName names (p.getLastD [])] <+: x → s.fs.get x = some m →
          s'.fs.get x = some m ∨ ∃ k, s.tick ≤ k ∧ k < s'.tick ∧ s'.fs.get x = some (m.touch (s.clk k)))
      (fun _ _ => True) s := by
  unfold trashOne
  generalize trashName names (p.getLastD []) = t at *
  have hap : Apart (env.rem ++ p) (env.trash ++ [t]) := by
    have := hu.apart (q := "Trash".toList :: [t]) env
    unfold Env.trash
    rw [List.append_assoc]; exact this
  rw [wp_tryCatch, wp_bind]
  refine wp_mono (wp_and (Steady.rename _ _ s) (wp_rename w hg (Q := fun _ s' => s'.fs.WF ∧
    ∀ x, s'.fs.get x = if env.rem ++ p <+: x then none else if env.trash ++ [t] <+: x then
      s.fs.get (env.rem ++ p ++ x.drop (env.trash ++ [t]).length) else s.fs.get x) (E := fun e _ => e ≠ .notFound) ?_ ?_)) ?_ ?_
  · rintro s1 (⟨h, _⟩ | ⟨h1, h2, ⟨n, h3, _⟩, h4, h5⟩)
    · exact absurd h (by rw [← List.append_nil (env.rem ++ p), ← List.append_nil (env.trash ++ [t])]; exact hap.ne _ _)
    · exact ⟨h2, h5⟩
  · rintro e s1 hs (rfl | he) hne
    · cases hne
    · subst hne
      have hpe : s.fs.pathErr (env.trash ++ [t]) = none :=
        pathErr_of_parent w (by simp) (by simpa using ht)
      unfold FS.rename at he
      rw [w.lstat_iff.2 hf] at he
      simp only [hpe] at he
      split at he
      · cases he
      · split at he
        · cases he
        · split at he <;> first | cases he | skip
          split at he <;> cases he
  · rintro _ s1 ⟨⟨hc, hk⟩, w1, h1⟩
    have below : ∀ u, s1.fs.get (env.trash ++ [t] ++ u) = s.fs.get (env.rem ++ p ++ u) := by
      intro u
      rw [h1, if_neg, if_pos (List.prefix_append _ _), List.drop_left]
      intro h
      exact prefix_comparable hap h (List.prefix_append _ _)
    have hn : s1.fs.get (env.trash ++ [t]) = some n := by
      have := below []
      rw [List.append_nil, List.append_nil] at this
      rw [this]; exact hf
    refine wp_mono (wp_and (wp_updateMtime w1 (by simp)) (wp_updateMtime_now w1 (by simp) hn)) ?_ ?_
    · rintro _ s2 ⟨ht, h2, h3⟩
      refine ⟨?_, ?_, ?_⟩
      · intro hl
        exact ⟨s1.tick, hk, (h2 hl).2, by rw [(h2 hl).1, hc]⟩
      · intro u m hu0 hm
        rw [← below] at hm
        obtain ⟨m', e1, e2⟩ := getData (ht.data _) hm
        refine ⟨m', e1, Node.data_isDir e2, ?_⟩
        intro hd
        have := ht.same _ m (by simpa using hu0) hm hd
        rw [this] at e1
        exact (Option.some.inj e1).symm
      · intro x m e1 e2 hx
        have hx1 : s1.fs.get x = some m := by rw [h1, if_neg e1, if_neg e2]; exact hx
        rcases h3 x m hx1 with h | ⟨h, h'⟩
        · exact Or.inl h
        · exact Or.inr ⟨s1.tick, hk, h', by rw [h, hc]⟩
    · rintro e s2 ⟨⟨_, rfl⟩, _⟩
      simp only [if_true]
  · rintro e s1 ⟨_, hne⟩
    rw [if_neg hne]
    split <;> trivial

theorem not_link_of_dir {n : Node} (h : n.isDir = true) : n.isLink = false := by
  cases n <;> first | rfl | cases h

/-- `n'` is `n`, or a directory if `n` is one, with the time `m`. -/
def Dated (n : Node) (m : Int) (n' : Node) : Prop :=
  n'.isDir = n.isDir ∧ n'.mtime = m ∧ (n.isDir = false → n' = n.touch m)

theorem touch_mtime (n : Node) (m : Int) : (n.touch m).mtime = m := by cases n <;> rfl

/-- What is at `d` and below it in the file system `f0` is now in the trash, under the name `t`. -/
def InTrash (env : Env) (f0 : FS) (d : Path) (n : Node) (m : Int) (t : Str) (fs : FS) : Prop :=
  (∃ n', fs.get (env.trash ++ [t]) = some n' ∧ Dated n m n') ∧
  ∀ u k, u ≠ [] → f0.get (env.rem ++ d ++ u) = some k →
    ∃ k', fs.get (env.trash ++ [t] ++ u) = some k' ∧ Alike k k'

/-- What is at a path of the batch, and all that is below it, is in the trash afterwards, at a place where nothing was, with
the time of the call. -/
theorem wp_trashFiles_now {env : Env} (ho : ∀ l, (env.order l).Perm l) (hr : GoodPath env.rem) {ps : List Path}
    (hps : ∀ p ∈ ps, UserPath p ∧ GoodPath p) {w : World} (wf : w.os.fs.WF) {d : Path} (hd : d ∈ ps) {n : Node}
    (hf : w.os.fs.get (env.rem ++ d) = some n) (hl : n.isLink = false)
    (top : ∀ p ∈ ps, p <+: d ∨ d <+: p → p = d)
    (dist : ∀ p ∈ ps, ∀ t, TrashTarget env w.os.fs p t → TrashTarget env w.os.fs d t → p = d) :
    wp (trashFiles env ps)
      (fun _ w' => ∃ t k, w.os.fs.get (env.trash ++ [t]) = none ∧ w.os.tick ≤ k ∧ k ≤ w'.os.tick ∧
        InTrash env w.os.fs d n (w.os.clk k) t w'.os.fs)
      (fun _ _ => True) w := by
  unfold trashFiles
  rw [wp_bind, wp_sys]
  refine wp_mono (wp_and (Steady.makeTrash env w.os) (wp_makeTrash env w.os)) ?_ (fun _ s' h => trivial)
  rintro _ s0 ⟨⟨hclk, htick⟩, hgrow⟩
  have w0 : s0.fs.WF := hgrow.wf (fun q hq => by rw [hq]; exact goodPath_trash hr) wf
  rw [wp_bind, wp_sys, wp_query]
  refine ⟨?_, fun _ _ => trivial⟩
  intro es hes
  obtain ⟨hdir, _, hmem⟩ := mem_scandir w0 hes
  generalize hnames : es.map (fun e => e.getLastD []) = names
  have hnm : ∀ c, c ∈ names ↔ s0.fs.get (env.trash ++ [c]) ≠ none := by
    intro c
    rw [← hnames, List.mem_map]
    constructor
    · rintro ⟨e, he, rfl⟩
      obtain ⟨h1, n, h2⟩ := (hmem e).1 he
      obtain ⟨d, rfl⟩ := List.length_eq_one_iff.1 h1
      simp [h2]
    · intro h
      obtain ⟨n, hn⟩ := Option.ne_none_iff_exists'.1 h
      exact ⟨[c], (hmem [c]).2 ⟨rfl, n, hn⟩, rfl⟩
  have htarget : ∀ p, TrashTarget env w.os.fs p (trashName names (p.getLastD [])) := by
    intro p
    apply TrashTarget.of_grow hgrow
    obtain ⟨k, h1, h2, h3⟩ := trashName_spec names (p.getLastD [])
    refine ⟨k, h1, ?_, fun j hj => (hnm _).1 (h3 j hj)⟩
    rw [h1]
    apply Classical.byContradiction
    intro h
    exact h2 ((hnm _).2 h)
  have hdist : ∀ p ∈ ps, trashName names (p.getLastD []) = trashName names (d.getLastD []) → p = d := by
    intro p hp he
    exact dist p hp _ (htarget p) (he ▸ htarget d)
  -- the trash and the paths of the batch
  have nTR : ∀ {p x t}, UserPath p → env.trash ++ [t] <+: x → ¬ env.rem ++ p <+: x := by
    intro p x t hu hx h
    have h2 := hu.apart (q := "Trash".toList :: [t]) env
    unfold Env.trash at hx
    rw [List.append_assoc] at hx
    exact prefix_comparable h2 h hx
  rw [wp_bind, wp_sys]
  refine wp_mono (wp_each (fun done (s' : OS) => s'.fs.WF ∧ s'.fs.isDir env.trash = true ∧ s'.clk = w.os.clk ∧
      w.os.tick ≤ s'.tick ∧
      (d ∉ done → ∀ u k, w.os.fs.get (env.rem ++ d ++ u) = some k →
        ∃ k', s'.fs.get (env.rem ++ d ++ u) = some k' ∧ Alike k k') ∧
      (d ∈ done → s'.fs.get (env.rem ++ d) = none ∧ ∃ k, w.os.tick ≤ k ∧ k ≤ s'.tick ∧
        InTrash env w.os.fs d n (w.os.clk k) (trashName names (d.getLastD [])) s'.fs))
    (E := fun _ _ => True)
    (env.order ps) ?_ ⟨w0, hdir, hclk, htick, fun _ u k h => ⟨k, hgrow.keeps _ _ h, Alike.refl k⟩, by simp⟩) ?_
    (fun _ _ _ => trivial)
  · rintro done p rest hl' s1 ⟨w1, d1, c1, k1, i1, i2⟩
    have hp : p ∈ ps := by rw [← (ho ps).mem_iff, hl']; simp
    obtain ⟨hu, hg⟩ := hps p hp
    have hlast : GoodName (p.getLastD []) := by
      rw [List.getLastD_eq_getLast?, List.getLast?_eq_some_getLast hu.1]
      exact hg _ (List.getLast_mem hu.1)
    have hgt : GoodPath (env.trash ++ [trashName names (p.getLastD [])]) := by
      rw [goodPath_append]
      refine ⟨goodPath_trash hr, ?_⟩
      intro c hc
      rw [List.mem_singleton] at hc
      obtain ⟨k, h1, _⟩ := trashName_spec names (p.getLastD [])
      rw [hc, h1]
      exact goodName_trashCand hlast k
    have base : ∀ {s2 : OS}, ((s2.fs = s1.fs ∧ s1.fs.get (env.rem ++ p) = none) ∨
        MovedTo (env.rem ++ p) (env.trash ++ [trashName names (p.getLastD [])]) s1.fs s2.fs) →
        s2.fs.WF ∧ s2.fs.isDir env.trash = true := by
      rintro s2 (⟨h1, _⟩ | h)
      · rw [h1]; exact ⟨w1, d1⟩
      · refine ⟨h.wf, ?_⟩
        have h1 : ¬ env.rem ++ p <+: env.trash := fun h' => h.apart.1 (h'.trans (List.prefix_append _ _))
        have h2 : ¬ env.trash ++ [trashName names (p.getLastD [])] <+: env.trash := by
          intro h'; have := h'.length_le; simp at this
        have h3 := h.data env.trash
        rw [if_neg h1, if_neg h2] at h3
        obtain ⟨m, b, hg⟩ := FS.isDir_iff.1 d1
        obtain ⟨n', h4, h5⟩ := getData h3 hg
        unfold FS.isDir
        rw [h4]
        exact Node.data_isDir h5
    by_cases hex : s1.fs.get (env.rem ++ p) = none
    · -- nothing is there any more
      refine wp_mono (wp_and (Steady.trashOne env names p s1) (wp_trashOne w1 hu hgt d1)) ?_ (fun _ _ _ => trivial)
      rintro _ s2 ⟨⟨c2, k2⟩, h⟩
      have hs : s2.fs = s1.fs := by
        rcases h with ⟨h, _⟩ | h
        · exact h
        · obtain ⟨n, hn⟩ := h.was
          rw [hex] at hn; cases hn
      obtain ⟨b1, b2⟩ := base h
      refine ⟨b1, b2, c2.trans c1, Nat.le_trans k1 k2, ?_, ?_⟩
      · intro hdd
        rw [hs]
        exact i1 (fun h => hdd (by simp [h]))
      · intro hdd
        rw [hs]
        by_cases hdd' : d ∈ done
        · obtain ⟨j1, k, j3, j4, j5⟩ := i2 hdd'
          exact ⟨j1, k, j3, Nat.le_trans j4 k2, j5⟩
        · exfalso
          have hpd : p = d := by
            rcases List.mem_append.1 hdd with h | h
            · exact absurd h hdd'
            · exact (List.mem_singleton.1 h).symm
          obtain ⟨k', e1, _⟩ := i1 hdd' [] n (by rw [List.append_nil]; exact hf)
          rw [List.append_nil, ← hpd, hex] at e1; cases e1
    obtain ⟨n1, hn1⟩ := Option.ne_none_iff_exists'.1 hex
    refine wp_mono (wp_and (Steady.trashOne env names p s1) (wp_and (wp_trashOne w1 hu hgt d1)
      (wp_trashOne_now w1 hu hgt d1 hn1))) ?_ (fun _ _ _ => trivial)
    rintro _ s2 ⟨⟨c2, k2⟩, h, m1, m2, m3⟩
    obtain ⟨b1, b2⟩ := base h
    have mv : MovedTo (env.rem ++ p) (env.trash ++ [trashName names (p.getLastD [])]) s1.fs s2.fs := by
      rcases h with ⟨_, h⟩ | h
      · exact absurd h hex
      · exact h
    refine ⟨b1, b2, c2.trans c1, Nat.le_trans k1 k2, ?_, ?_⟩
    · intro hdd u k hk
      have hpd : p ≠ d := fun e => hdd (by simp [e])
      obtain ⟨k', e1, e2⟩ := i1 (fun h => hdd (by simp [h])) u k hk
      have o1 : ¬ env.rem ++ p <+: env.rem ++ d ++ u := by
        rw [List.append_assoc, List.prefix_append_right_inj]
        intro h'
        rcases List.prefix_or_prefix_of_prefix h' (List.prefix_append d u) with h'' | h''
        · exact hpd (top p hp (Or.inl h''))
        · exact hpd (top p hp (Or.inr h''))
      have o2 : ¬ env.trash ++ [trashName names (p.getLastD [])] <+: env.rem ++ d ++ u :=
        fun h' => nTR (hps d hd).1 h' (List.prefix_append _ _)
      have h3 := mv.data (env.rem ++ d ++ u)
      rw [if_neg o1, if_neg o2] at h3
      obtain ⟨k2', e3, e4⟩ := getData h3 e1
      refine ⟨k2', e3, e2.trans ⟨Node.data_isDir e4, fun hnd => ?_⟩⟩
      have := mv.same _ _ o1 o2 e1 hnd
      rw [this] at e3
      exact (Option.some.inj e3).symm
    · intro hdd
      by_cases hpd : p = d
      · subst hpd
        have hdd' : p ∉ done := fun hc => hex (i2 hc).1
        refine ⟨?_, ?_⟩
        · have := mv.data (env.rem ++ p)
          rw [if_pos (List.prefix_refl _)] at this
          exact getData_none this rfl
        · obtain ⟨n2, e1, e2⟩ := i1 hdd' [] n (by rw [List.append_nil]; exact hf)
          rw [List.append_nil, hn1] at e1
          cases e1
          have hl1 : n1.isLink = false := by
            cases hnd : n.isDir with
            | false => rw [e2.2 hnd]; exact hl
            | true =>
              exact not_link_of_dir (e2.1.trans hnd)
          obtain ⟨k, e3, e4, e5⟩ := m1 hl1
          refine ⟨k, Nat.le_trans k1 e3, Nat.le_of_lt e4, ⟨_, e5, ?_, ?_, ?_⟩, ?_⟩
          · rw [touch_isDir]; exact e2.1
          · rw [touch_mtime, c1]
          · intro hnd
            rw [e2.2 hnd, c1]
          · intro u k hu0 hk
            obtain ⟨k', e6, e7⟩ := i1 hdd' u k hk
            obtain ⟨k2', e8, e9⟩ := m2 u k' hu0 e6
            exact ⟨k2', e8, e7.trans e9⟩
      · have hdd' : d ∈ done := by
          rcases List.mem_append.1 hdd with h | h
          · exact h
          · exact absurd (List.mem_singleton.1 h).symm hpd
        obtain ⟨j1, k, j2, j3, ⟨n', j4, j5⟩, j6⟩ := i2 hdd'
        have nt : trashName names (p.getLastD []) ≠ trashName names (d.getLastD []) := fun e => hpd (hdist p hp e)
        have o1 : ∀ u, ¬ env.rem ++ p <+: env.trash ++ [trashName names (d.getLastD [])] ++ u :=
          fun u => nTR hu (List.prefix_append _ _)
        have o2 : ∀ u, ¬ env.trash ++ [trashName names (p.getLastD [])] <+:
            env.trash ++ [trashName names (d.getLastD [])] ++ u := by
          intro u h'
          rw [List.append_assoc, List.prefix_append_right_inj, List.singleton_append, List.cons_prefix_cons] at h'
          exact nt h'.1
        have kk : ∃ k, w.os.tick ≤ k ∧ k ≤ s2.tick ∧ ∃ n', s2.fs.get (env.trash ++ [trashName names (d.getLastD [])]) =
            some n' ∧ Dated n (w.os.clk k) n' := by
          have e1 := o1 []
          have e2 := o2 []
          rw [List.append_nil] at e1 e2
          rcases m3 _ n' e1 e2 j4 with h | ⟨k', f1, f2, f3⟩
          · exact ⟨k, j2, Nat.le_trans j3 k2, n', h, j5⟩
          · refine ⟨k', Nat.le_trans k1 f1, Nat.le_of_lt f2, _, f3, ?_, ?_, ?_⟩
            · rw [touch_isDir]; exact j5.1
            · rw [touch_mtime, c1]
            · intro hnd
              rw [j5.2.2 hnd, touch_touch, c1]
        obtain ⟨k', f1, f2, f3⟩ := kk
        refine ⟨?_, k', f1, f2, f3, ?_⟩
        · have h6 := mv.data (env.rem ++ d)
          split at h6
          · exact getData_none h6 rfl
          · rw [if_neg] at h6
            · exact getData_none h6 j1
            · intro h'
              exact nTR (hps d hd).1 h' (List.prefix_refl _)
        · intro u k0 hu0 hk
          obtain ⟨k2', e1, e2⟩ := j6 u k0 hu0 hk
          have h3 := mv.data (env.trash ++ [trashName names (d.getLastD [])] ++ u)
          rw [if_neg (o1 u), if_neg (o2 u)] at h3
          obtain ⟨k3, e3, e4⟩ := getData h3 e1
          refine ⟨k3, e3, e2.trans ⟨Node.data_isDir e4, fun hnd => ?_⟩⟩
          have := mv.same _ _ (o1 u) (o2 u) e1 hnd
          rw [this] at e3
          exact (Option.some.inj e3).symm
  · rintro _ s1 ⟨_, _, _, _, _, i2⟩
    unfold rmBoth
    rw [wp_modify]
    obtain ⟨_, k, h1, h2, h3⟩ := i2 ((ho ps).mem_iff.2 hd)
    obtain ⟨_, _, h4, _⟩ := htarget d
    exact ⟨_, k, h4, h1, h2, h3⟩

/-- If there is nothing to move then nothing is put into the trash. -/
theorem wp_trashFiles_nil {env : Env} (ho : ∀ l, (env.order l).Perm l) (w : World) :
    wp (trashFiles env [])
      (fun _ w' => ∀ c, w.os.fs.get (env.trash ++ [c]) = none → w'.os.fs.get (env.trash ++ [c]) = none)
      (fun _ _ => True) w := by
  unfold trashFiles
  rw [wp_bind, wp_sys]
  refine wp_mono (wp_makeTrash env w.os) ?_ (fun _ s' h => trivial)
  intro _ s0 hgrow
  rw [wp_bind, wp_sys, wp_query]
  refine ⟨?_, fun _ _ => trivial⟩
  intro es hes
  rw [(ho []).eq_nil, wp_bind, wp_sys]
  have e : ∀ f : Path → OSM Unit, each f [] = pure () := fun _ => rfl
  rw [e, wp_pure]
  intro c hc
  rcases hgrow.new _ hc with h | ⟨h, _⟩
  · exact h
  · have := congrArg List.length h
    simp at this

end Verif
