import Verif.Props.C103_Links
/-
C103 over whole histories: any number of clients and commands.
-/
namespace Verif
open Prog OSM Call FSTools WM ADB ALocal

variable {ι : Type}

/-- `w` is the state in which the last command of the client has ended, `w'` the one in which its next command starts:
every link out of the local directory that stands where the remote directory has a file was there after the last
command, and so was a file at this path of the remote directory. The user may delete and replace links, but not make
their own where the remote directory has or gets a file (see `C103_own_link_fails`). -/
def NoOwnLinks (env : Env) (w w' : World) : Prop :=
  ∀ p n k m b, UserPath p → w'.os.fs.get (env.loc ++ p) = some n → UnsafeLink env.loc p n →
    w'.os.fs.get (env.rem ++ p) = some (.file k m b) →
    ∃ k m b, w.os.fs.get (env.loc ++ p) = some n ∧ w.os.fs.get (env.rem ++ p) = some (.file k m b)

/-- The histories of C69 (see `History`) with this condition on what the users do between two commands. -/
inductive LinkHistory (E : ι → Env) : List (ι × World) → Prop where
  | first (c : ι) (w : World) : InitReady (E c) w → w.rdb = [] →
      (∀ p, UserPath p → w.os.fs.get ((E c).rem ++ p) = none) → (init (E c) false w).1 = .ok () →
      LinkHistory E [(c, (init (E c) false w).2)]
  | join (c d : ι) (v w : World) (h : List (ι × World)) : LinkHistory E ((d, v) :: h) → (∀ x ∈ (d, v) :: h, x.1 ≠ c) →
      AddReady (E c) w → w.rdb = v.rdbSaved → SameRemote (E c) v w →
      (∀ p n, UserPath p → w.os.fs.get ((E c).rem ++ p) = some n → ¬ UnsafeLink (E c).rem p n) →
      (∀ p, p ≠ [] → w.os.fs.get ((E c).loc ++ p) = none) → (init (E c) true w).1 = .ok () →
      LinkHistory E ((c, (init (E c) true w).2) :: (d, v) :: h)
  | again (c : ι) (w w' : World) (h : List (ι × World)) : LinkHistory E ((c, w) :: h) → Edits (E c) w w' →
      NoOwnLinks (E c) w w' →
      w'.rdb = w.rdbSaved → (sync (E c) w').1 = .ok () → LinkHistory E ((c, (sync (E c) w').2) :: (c, w) :: h)
  | sync (c d : ι) (v w w' : World) (h : List (ι × World)) : LinkHistory E ((d, v) :: h) → (c, w) ∈ h →
      Edits (E c) w w' → NoOwnLinks (E c) w w' → w'.rdb = v.rdbSaved → SameRemote (E c) v w' →
      (∀ p ∈ ADB.paths w'.db, w'.os.fs.get ((E c).rem ++ p) = none → ¬ OwnExcludes (E c) w'.os.fs p) →
      (sync (E c) w').1 = .ok () → LinkHistory E ((c, (sync (E c) w').2) :: (d, v) :: h)

theorem LinkHistory.history {E : ι → Env} {h : List (ι × World)} (hh : LinkHistory E h) : History E h := by
  induction hh with
  | first c w h1 h2 h3 h4 => exact .first c w h1 h2 h3 h4
  | join c d v w h _ h1 h2 h3 h4 h5 h6 h7 ih => exact .join c d v w h ih h1 h2 h3 h4 h5 h6 h7
  | again c w w' h _ h1 _ h2 h3 ih => exact .again c w w' h ih h1 h2 h3
  | sync c d v w w' h _ h1 h2 _ h3 h4 h5 h6 ih => exact .sync c d v w w' h ih h1 h2 h3 h4 h5 h6

/-- C103: after every command of such a history the client that has run it knows of each of its links that it is not a
copy. Missing: interrupted commands and what C69 does not cover. -/
theorem C103_history_partial {E : ι → Env} (hE : ∀ c, EnvReady (E c)) (hrem : ∀ c d, (E c).rem = (E d).rem)
    {h : List (ι × World)} (hh : LinkHistory E h) : ∀ x ∈ h, LinksMarked (E x.1) x.2 := by
  induction hh with
  | first c w hi hd he hr =>
    intro x hx
    rw [List.mem_singleton] at hx
    subst hx
    exact C103_init_partial hE hrem (.first c w hi hd he hr) hi.rows
  | join c d v w h hh hn ha hd hs hu he hr ih =>
    intro x hx
    rcases List.mem_cons.1 hx with rfl | hx
    · exact C103_init_partial hE hrem (.join c d v w h hh.history hn ha hd hs hu he hr) ha.rows
    · exact ih x hx
  | again c w w' h hh hed hl hd hr ih =>
    intro x hx
    rcases List.mem_cons.1 hx with rfl | hx
    · obtain ⟨r, k⟩ := C69_ready_partial hE hrem hh.history List.mem_cons_self hed hd (Or.inl rfl)
      refine C103_marked_partial r k hr (C103_between_partial (w := w) (ih (c, w) List.mem_cons_self) ?_ hed hl)
      exact (C69_agree_partial hE hrem hh.history _ List.mem_cons_self).dbSaved
    · exact ih x hx
  | sync c d v w w' h hh hm hed hl hd hs hex hr ih =>
    intro x hx
    rcases List.mem_cons.1 hx with rfl | hx
    · obtain ⟨r, k⟩ := C69_ready_partial hE hrem hh.history (List.mem_cons_of_mem _ hm) hed hd (Or.inr ⟨hs, hex⟩)
      refine C103_marked_partial r k hr (C103_between_partial (w := w) (ih (c, w) (List.mem_cons_of_mem _ hm)) ?_ hed hl)
      exact (C69_agree_partial hE hrem hh.history _ (List.mem_cons_of_mem _ hm)).dbSaved
    · exact ih x hx

/-- C103: after any such history, the user of a client deletes a link that its last command has left for a remote file,
and synchronises with `UseTrash`: the file, as it is then, comes to the trash with its content. The other clients may
have run commands in between, and changed the file. Missing: a second deleted path that gets the same name in the trash
(see C99), remote links, and what C69 does not cover. -/
theorem C103_history_trash_partial {E : ι → Env} (hE : ∀ c, EnvReady (E c)) (hrem : ∀ c d, (E c).rem = (E d).rem)
    {c d : ι} {v w w' : World} {h : List (ι × World)} (hh : LinkHistory E ((d, v) :: h)) (hm : (c, w) ∈ (d, v) :: h)
    (hed : Edits (E c) w w') (hd : w'.rdb = v.rdbSaved)
    (ho : w = v ∨ (SameRemote (E c) v w' ∧
      ∀ p ∈ ADB.paths w'.db, w'.os.fs.get ((E c).rem ++ p) = none → ¬ OwnExcludes (E c) w'.os.fs p))
    {p : Path} {n : Node} {k : Nat} {m : Int} {b : Nat} (hu : UserPath p) (hn : w.os.fs.get ((E c).loc ++ p) = some n)
    (hl : UnsafeLink (E c).loc p n) (hr : w.os.fs.get ((E c).rem ++ p) = some (.file k m b))
    (hdel : Deleted (E c) w' p) {k' : Nat} {m' : Int} {b' : Nat}
    (hf : w'.os.fs.get ((E c).rem ++ p) = some (.file k' m' b')) (ht : (E c).useTrash = true)
    (dist : ∀ q, Deleted (E c) w' q → ∀ t, TrashTarget (E c) w'.os.fs q t → TrashTarget (E c) w'.os.fs p t → q = p)
    (short : ∀ t, (E c).cleanup = some t → ∀ i j, During w' (Verif.sync (E c) w').2 i →
      During w' (Verif.sync (E c) w').2 j → t ≠ 0 → w'.os.clk j < w'.os.clk i + t)
    (hok : (Verif.sync (E c) w').1 = .ok ()) :
    ∃ t i, w'.os.fs.get ((E c).trash ++ [t]) = none ∧ During w' (Verif.sync (E c) w').2 i ∧
      InTrash (E c) w'.os.fs p (.file k' m' b') (w'.os.clk i) t (Verif.sync (E c) w').2.os.fs := by
  have hmk := C103_history_partial hE hrem hh _ hm
  obtain ⟨r, _⟩ := C69_ready_partial hE hrem hh.history hm hed hd ho
  obtain ⟨e, he, rfl, h2⟩ := hmk p n k m b hu hn hl hr
  have hc := hed.db.same
  rw [(C69_agree_partial hE hrem hh.history _ hm).dbSaved] at hc
  have h6 : bare e ∈ w'.db.map bare := by rw [hc]; exact List.mem_map_of_mem he
  obtain ⟨e', h7, h8⟩ := List.mem_map.1 h6
  have hp : e'.path = e.path := congrArg (·.1) h8
  rw [← hp] at hf hdel dist ⊢
  exact C99_moved_partial r ht h7 ((congrArg (·.2.2) h8).trans h2) hdel hf rfl dist short hok

/-! ### Example: the history of C69 -/

theorem exN2_links : NoOwnLinks (exPair true) exH2 exN2 := by
  intro p n k m b _ hn hl _
  have h1 : ∀ x ∈ localEntries (exPair true) exN2.os.fs, x.2.isLink = true → x = (px ["d", "a"], .link "/r/d/a".toList 84) := by
    decide +kernel
  have h2 := h1 _ (mem_localEntries (by decide) hn) (by obtain ⟨t, a, rfl, _⟩ := hl; rfl)
  obtain ⟨rfl, rfl⟩ := Prod.mk.inj h2
  exact ⟨7, 3, 1, by decide +kernel, by decide +kernel⟩

/-- The first client has a link of its own at `k`, but the remote directory has no `k`. -/
theorem exN3_links : NoOwnLinks (exPair false) exH1 exN3 := by
  intro p n k m b _ hn hl hr
  have h1 : ∀ x ∈ localEntries (exPair false) exN3.os.fs, x.2.isLink = true →
      x = (px ["b"], .link "/r/b".toList 69) ∨ x = (px ["k"], .link "/q".toList 4) := by
    decide +kernel
  have h2 := h1 _ (mem_localEntries (by decide) hn) (by obtain ⟨t, a, rfl, _⟩ := hl; rfl)
  rcases h2 with h2 | h2
  · obtain ⟨rfl, rfl⟩ := Prod.mk.inj h2
    exact ⟨9, 4, 1, by decide +kernel, by decide +kernel⟩
  · obtain ⟨rfl, rfl⟩ := Prod.mk.inj h2
    rw [show exN3.os.fs.get ((exPair false).rem ++ px ["k"]) = none by decide +kernel] at hr
    cases hr

theorem exLinkHistory1 : LinkHistory exPair [(false, exH1)] :=
  .first false (exInit 1000) (exInit_ready 1000) rfl (by
    intro p _
    change exInitFS.get (exEnvE.rem ++ p) = none
    rcases Option.eq_none_or_eq_some (exInitFS.get (exEnvE.rem ++ p)) with h | ⟨n, h⟩
    · exact h
    · have hm := FS.mem_of_get (by simp [exEnvE]) h
      simp [exInitFS, exEnvE] at hm) (by decide +kernel)

theorem exLinkHistory2 : LinkHistory exPair [(true, exH2), (false, exH1)] := by
  refine .join true false exH1 exN1 [] exLinkHistory1 (by simp) ?_ (by decide +kernel) (fun p _ => by rw [show exN1.os.fs = exH1.os.fs by decide +kernel]) ?_ ?_
    (by decide +kernel)
  · refine ⟨⟨by decide +kernel, by decide +kernel, by decide +kernel, by decide +kernel⟩, by unfold Apart; decide +kernel,
      by decide, ?_, by decide, by decide, ?_, by decide +kernel, by decide +kernel⟩
    · intro n hn
      rw [show exN1.os.fs.get (exPair true).loc = none by decide +kernel] at hn; cases hn
    · intro n hn
      rw [show exN1.os.fs.get ((exPair true).exclDir ++ [(exPair true).id]) = none by decide +kernel] at hn; cases hn
  · rintro p n _ hn ⟨t, m, rfl, _⟩
    have h : (exN1.os.fs.all fun e => !((exPair true).rem.isPrefixOf e.1) || !e.2.isLink) = true := by decide +kernel
    have h1 := List.all_eq_true.1 h _ (FS.mem_of_get (by simp [exPair, exEnvE]) hn)
    have h2 : (exPair true).rem.isPrefixOf ((exPair true).rem ++ p) = true :=
      List.isPrefixOf_iff_prefix.2 (List.prefix_append _ _)
    simp only [h2, Bool.not_true, Bool.false_or] at h1
    cases h1
  · intro p _
    rcases Option.eq_none_or_eq_some (exN1.os.fs.get ((exPair true).loc ++ p)) with h | ⟨n, h⟩
    · exact h
    · have h' : (exN1.os.fs.all fun e => !((exPair true).loc.isPrefixOf e.1)) = true := by decide +kernel
      have h1 := List.all_eq_true.1 h' _ (FS.mem_of_get (by simp [exPair]) h)
      have h2 : (exPair true).loc.isPrefixOf ((exPair true).loc ++ p) = true :=
        List.isPrefixOf_iff_prefix.2 (List.prefix_append _ _)
      rw [h2] at h1; cases h1

theorem exLinkHistory3 : LinkHistory exPair [(true, exH3), (true, exH2), (false, exH1)] :=
  .again true exH2 exN2 _ exLinkHistory2
    (edits_of_editsB (by decide +kernel) (exPair_ready true).apart (exPair_stamp true) exN2_counted (by decide +kernel) rfl)
    exN2_links (by decide +kernel) (by decide +kernel)

theorem exLinkHistory : LinkHistory exPair [(false, exH4), (true, exH3), (true, exH2), (false, exH1)] := by
  refine .sync false true exH3 exH1 exN3 _ exLinkHistory3 (by simp)
    (edits_of_editsB (by decide +kernel) (exPair_ready false).apart (exPair_stamp false) exN3_counted (by decide +kernel) rfl)
    exN3_links (by decide +kernel) ?_ ?_
    (by decide +kernel)
  · intro p _
    rw [exN3_fs]
    refine FS.get_rm_ne _ (fun e => ?_)
    simp [exPair, exEnvE, px] at e
  · intro p hp hn
    exfalso
    have h : ∀ p ∈ ADB.paths exN3.db, (exN3.os.fs.get ((exPair false).rem ++ p)).isSome = true := by decide +kernel
    have h1 := h p hp
    rw [hn] at h1; cases h1

/-- The links are marked after each of the four commands. -/
example : ∀ x ∈ [(false, exH4), (true, exH3), (true, exH2), (false, exH1)], LinksMarked (exPair x.1) x.2 :=
  C103_history_partial exPair_ready (by intro c d; cases c <;> cases d <;> rfl) exLinkHistory

theorem exN3_gone {p : Path} (h : GoneLocally (exPair false) exN3 p) : p = px ["d", "a"] := by
  have h1 : ∀ p ∈ ADB.paths exN3.db, exN3.os.fs.get ((exPair false).loc ++ p) = none → p = px ["d", "a"] := by
    decide +kernel
  exact h1 p h.1 h.2

/-- The first client has deleted its link `d/a`, and the second one has synchronised in the meantime: the file comes to
the trash. -/
example : ∃ t i, exN3.os.fs.get ((exPair false).trash ++ [t]) = none ∧ During exN3 (sync (exPair false) exN3).2 i ∧
    InTrash (exPair false) exN3.os.fs (px ["d", "a"]) (.file 7 3 1) (exN3.os.clk i) t (sync (exPair false) exN3).2.os.fs := by
  refine C103_history_trash_partial (E := exPair) (c := false) (d := true) (v := exH3) (w := exH1) exPair_ready
    (by intro c d; cases c <;> cases d <;> rfl) exLinkHistory3 (by simp)
    (edits_of_editsB (by decide +kernel) (exPair_ready false).apart (exPair_stamp false) exN3_counted (by decide +kernel) rfl)
    (by decide +kernel) (Or.inr ⟨?_, ?_⟩) (n := .link "/r/d/a".toList 72) (k := 7) (m := 3) (b := 1) (by decide +kernel)
    (by decide +kernel) (unsafe_abs _ (by decide)) (by decide +kernel)
    ⟨by decide +kernel, fun q hq _ => exN3_gone hq⟩ (by decide +kernel) rfl
    (fun q hq _ _ _ => exN3_gone hq.1) (fun t ht => by cases ht) (by decide +kernel)
  · intro p _
    rw [exN3_fs]
    refine FS.get_rm_ne _ (fun e => ?_)
    simp [exPair, exEnvE, px] at e
  · intro p hp hn
    exfalso
    have h : ∀ p ∈ ADB.paths exN3.db, (exN3.os.fs.get ((exPair false).rem ++ p)).isSome = true := by decide +kernel
    have h1 := h p hp
    rw [hn] at h1; cases h1

end Verif
