import Verif.WorldLemmas
/-
Modification times: if the clock does not go back and no file is from the future, no file is from the future at any
later time.
-/
namespace Verif
open Prog OSM Call FSTools WM

/-- The clock is `c`, it does not go back and has ticked at least `k` times, and no file is newer than now. -/
def Aged (c : Nat → Int) (k : Nat) (s : OS) : Prop :=
  s.clk = c ∧ (∀ i j, i ≤ j → c i ≤ c j) ∧ k ≤ s.tick ∧ ∀ e ∈ s.fs, e.2.mtime ≤ c s.tick

theorem Aged.weaken {c : Nat → Int} {k k' : Nat} {s : OS} (h : Aged c k s) (hk : k' ≤ k) : Aged c k' s :=
  ⟨h.1, h.2.1, Nat.le_trans hk h.2.2.1, h.2.2.2⟩

theorem Aged.now {c : Nat → Int} {k : Nat} {s : OS} (h : Aged c k s) : Aged c s.tick s :=
  ⟨h.1, h.2.1, Nat.le_refl _, h.2.2.2⟩

theorem Aged.get {c : Nat → Int} {k : Nat} {s : OS} (h : Aged c k s) {p : Path} (hp : p ≠ []) {n : Node}
    (hn : s.fs.get p = some n) : n.mtime ≤ c s.tick := h.2.2.2 _ (FS.mem_of_get hp hn)

/-- `m` keeps it so, given a time `t` that has passed. -/
def Timely {α : Type} (t : Int) (m : OSM α) : Prop :=
  ∀ s c k, t ≤ c k → Aged c k s → wp m (fun _ s' => Aged c k s') (fun _ s' => Aged c k s') s

namespace Timely
variable {α β γ : Type} {t : Int}

theorem pure (a : α) : Timely t (Pure.pure a : OSM α) := fun _ _ _ _ h => h

theorem throw (e : Err) : Timely t (Prog.throw e : OSM α) := fun _ _ _ _ h => h

theorem query (f : FS → Except Err α) : Timely t (OSM.query f) := by
  intro s c k _ h
  rw [wp_query]
  exact ⟨fun _ _ => h, fun _ _ => h⟩

theorem ask (f : FS → α) : Timely t (OSM.ask f) := fun _ _ _ _ h => h

theorem time : Timely t OSM.time := fun _ _ _ _ h => h

theorem op {f : FS → Int → Except Err FS}
    (hf : ∀ T fs now fs', t ≤ T → now ≤ T → (∀ e ∈ fs, e.2.mtime ≤ T) → f fs now = .ok fs' → ∀ e ∈ fs', e.2.mtime ≤ T) :
    Timely t (OSM.op f) := by
  intro s c k hk h
  obtain ⟨rfl, hmono, hge, hfs⟩ := h
  have hs : s.clk s.tick ≤ s.clk (s.tick + 1) := hmono _ _ (Nat.le_succ _)
  have hle : ∀ e ∈ s.fs, e.2.mtime ≤ s.clk (s.tick + 1) := fun e he => Int.le_trans (hfs e he) hs
  apply wp_op
  · exact ⟨rfl, hmono, hge, hfs⟩
  · intro fs hf'
    exact ⟨rfl, hmono, Nat.le_succ_of_le hge,
      hf _ _ _ _ (Int.le_trans hk (hmono _ _ (Nat.le_succ_of_le hge))) hs hle hf'⟩
  · intro e _
    exact ⟨rfl, hmono, Nat.le_succ_of_le hge, hle⟩

theorem bind {m : OSM α} {f : α → OSM β} (hm : Timely t m) (hf : ∀ a, Timely t (f a)) : Timely t (m >>= f) := by
  intro s c k hk h
  rw [wp_bind]
  exact wp_mono (hm s c k hk h) (fun a s' h => hf a s' c k hk h) (fun _ _ h => h)

theorem tryCatch {m : OSM α} {h : Err → Option (OSM α)} (hm : Timely t m)
    (hh : ∀ e k, h e = some k → Timely t k) : Timely t (Prog.tryCatch m h) := by
  intro s c j hk ha
  rw [wp_tryCatch]
  refine wp_mono (hm s c j hk ha) (fun _ _ h => h) ?_
  intro e s' h1
  split
  · exact h1
  · split
    · rename_i k hk'
      exact hh e k hk' s' c j hk h1
    · exact h1

theorem each {f : γ → OSM Unit} (hf : ∀ x, Timely t (f x)) : ∀ l, Timely t (Prog.each f l)
  | [] => pure ()
  | x :: xs => bind (hf x) (fun _ => each hf xs)

theorem ite {c : Prop} [Decidable c] {a b : OSM α} (ha : Timely t a) (hb : Timely t b) :
    Timely t (if c then a else b) := by
  split
  · exact ha
  · exact hb

theorem orRemote {env : Env} {m : OSM α} (hm : Timely t m) : Timely t (Verif.orRemote env m) := by
  unfold Verif.orRemote
  refine tryCatch hm ?_
  intro e k h
  split at h
  · cases h
    exact bind (ask _) (fun _ => throw _)
  · cases h

theorem mem_rm {fs : FS} {p : Path} {e : Path × Node} (h : e ∈ fs.rm p) : e ∈ fs := (List.mem_filter.1 h).1

theorem mem_set {fs : FS} {p : Path} {n : Node} {e : Path × Node} (h : e ∈ fs.set p n) : e.2 = n ∨ e ∈ fs := by
  rcases List.mem_cons.1 h with h | h
  · exact Or.inl (by rw [h])
  · exact Or.inr (mem_rm h)

theorem remove (p : Path) : Timely t (Call.remove p) := by
  apply op
  intro T fs now fs' _ _ h hf e he
  unfold FS.remove at hf
  split at hf
  · cases hf
  · cases hf
  · cases hf; exact h e (mem_rm he)

theorem rmdir (p : Path) : Timely t (Call.rmdir p) := by
  apply op
  intro T fs now fs' _ _ h hf e he
  unfold FS.rmdir at hf
  split at hf
  · cases hf
  · split at hf
    · cases hf; exact h e (mem_rm he)
    · cases hf
  · cases hf

theorem create {T : Int} {fs fs' : FS} {p : Path} {n : Node} (hn : n.mtime ≤ T) (h : ∀ e ∈ fs, e.2.mtime ≤ T)
    (hf : fs.create p n = .ok fs') : ∀ e ∈ fs', e.2.mtime ≤ T := by
  intro e he
  unfold FS.create at hf
  split at hf
  · cases hf
  · split at hf
    · cases hf
    · cases hf
      rcases mem_set he with h1 | h1
      · rw [h1]; exact hn
      · exact h e h1

theorem mkdir (p : Path) : Timely t (Call.mkdir p) :=
  op (fun _ _ now _ _ hnow h hf => create (n := .dir now 8) hnow h hf)

theorem symlink (x : Str) (p : Path) : Timely t (Call.symlink x p) :=
  op (fun _ _ now _ _ hnow h hf => create (n := .link x now) hnow h hf)

theorem rename (p q : Path) : Timely t (Call.rename p q) := by
  apply op
  intro T fs now fs' _ _ h hf e he
  have hmove : ∀ e ∈ fs.move p q, e.2.mtime ≤ T := by
    intro e he
    rcases List.mem_append.1 he with h1 | h1
    · exact h e (List.mem_filter.1 h1).1
    · obtain ⟨x, h2, rfl⟩ := List.mem_map.1 h1
      exact h x (List.mem_filter.1 h2).1
  unfold FS.rename at hf
  split at hf
  · cases hf
  · split at hf
    · cases hf
    · split at hf
      · cases hf; exact h e he
      · split at hf
        · cases hf
        · split at hf
          all_goals first
            | (cases hf; exact hmove e he)
            | (split at hf
               · cases hf; exact hmove e he
               · cases hf)
            | cases hf

theorem update (p : Path) {f : Node → Int → Node}
    (hf : ∀ T n now, t ≤ T → now ≤ T → (f n now).mtime ≤ T) : Timely t (Call.update p f) := by
  apply op
  intro T fs now fs' ht hnow h hg e he
  split at hg
  · rename_i n hn
    cases hg
    rcases mem_set he with h1 | h1
    · rw [h1]
      exact hf T n now ht hnow
    · exact h e h1
  · cases hg

theorem truncate (q : Path) : Timely t (Call.truncate q) := by
  apply op
  intro T fs now fs' _ hnow h hg e he
  split at hg
  · cases hg
  · cases hg
  · cases hg
    rcases mem_set he with h1 | h1
    · rw [h1]; exact hnow
    · exact h e h1

theorem touched (n : Node) (m : Int) : (n.touch m).mtime = m := by cases n <;> rfl

theorem touch (p : Path) : Timely t (Call.update p (fun n now => n.touch now)) :=
  update p (fun T n now _ h => by rw [touched]; exact h)

theorem write (p : Path) (c b : Nat) : Timely t (Call.update p (fun _ now => .file c now b)) :=
  update p (fun _ _ _ _ h => h)

theorem touchTo (p : Path) : Timely t (Call.update p (fun n _ => n.touch t)) :=
  update p (fun T n now h _ => by rw [touched]; exact h)

theorem rmEntry (p : Path) : Timely t (Call.rmEntry p) := bind (query _) (fun _ => ite (rmdir _) (remove _))

theorem rmtree (p : Path) : Timely t (Call.rmtree p) := by
  refine bind (query _) (fun n => ?_)
  cases n with
  | link => exact throw _
  | file => exact throw _
  | dir => exact bind (ask _) (fun _ => bind (each (fun _ => rmEntry _) _) (fun _ => rmdir _))

theorem mkdirOk (p : Path) : Timely t (Call.mkdirOk p) := by
  refine tryCatch (mkdir p) ?_
  intro e k h
  cases h
  exact bind (ask _) (fun _ => ite (pure _) (throw _))

theorem makedirsRev : ∀ p, Timely t (Call.makedirsRev p)
  | [] => mkdirOk []
  | c :: rev => by
    refine bind (ask _) (fun b => ite (mkdirOk _) (bind (tryCatch (makedirsRev rev) ?_) (fun _ => mkdirOk _)))
    intro e k h
    split at h
    · cases h; exact pure _
    · cases h

theorem makedirs (p : Path) : Timely t (Call.makedirs p) := makedirsRev _

theorem copyFile (c b : Nat) (dst : Path) : Timely t (Call.copyFile c t b dst) :=
  bind (query _) (fun _ => bind (truncate _) (fun _ => bind (write _ _ _) (fun _ => touchTo _)))

theorem copyLink (x : Str) (dst : Path) : Timely t (Call.copyLink x t dst) :=
  bind (symlink _ _) (fun _ => touchTo _)

theorem get_file_ne {fs : FS} {p : Path} {n : Node} (h : fs.get p = some n) (hd : n.isDir = false) : p ≠ [] := by
  rintro rfl
  have : n = .dir 0 8 := by unfold FS.get at h; simpa using h.symm
  rw [this] at hd; cases hd

theorem copyTo (src dst : Path) : Timely t (Call.copyTo src dst) := by
  refine bind (ask _) (fun same => ite (throw _) ?_)
  intro s c j hk h
  rw [wp_bind, wp_ask]
  have go : ∀ {α : Type} (m : Int) (k : OSM α), m ≤ c s.tick → Timely m k →
      wp k (fun _ s' => Aged c j s') (fun _ s' => Aged c j s') s := by
    intro α m k hm hk
    exact wp_mono (hk s c s.tick hm h.now) (fun _ _ h1 => h1.weaken h.2.2.1) (fun _ _ h1 => h1.weaken h.2.2.1)
  have hl : ∀ n, s.fs.lstat src = .ok n → s.fs.get src = some n := by
    intro n hn
    unfold FS.lstat at hn
    split at hn
    · cases hn
    · split at hn
      · cases hn; assumption
      · cases hn
  have hst : ∀ q n, s.fs.stat src = .ok (q, n) → s.fs.get q = some n := by
    intro q n hn
    unfold FS.stat at hn
    split at hn
    · cases hn
    · split at hn
      · cases hn; assumption
      · cases hn
  split
  · rename_i x m _ heq
    have h1 := hl _ (congrArg Prod.fst heq)
    exact go m _ (h.get (get_file_ne h1 rfl) h1) (copyLink x dst)
  · exact h
  · rename_i q x m k _ heq
    have h1 := hst _ _ (congrArg Prod.snd heq)
    exact go m _ (h.get (get_file_ne h1 rfl) h1) (copyFile x k dst)
  · exact h

theorem copy2 (src dst : Path) : Timely t (Call.copy2 src dst) := bind (ask _) (fun _ => copyTo _ _)

theorem copyEntry (src dst : Path) : Timely t (FSTools.copyEntry src dst) := by
  refine tryCatch (copy2 _ _) ?_
  intro e k h
  unfold copyFailed at h
  split at h
  · cases h; exact bind (remove _) (fun _ => copy2 _ _)
  · cases h; exact bind (remove _) (fun _ => copy2 _ _)
  · cases h; exact makedirs _
  · cases h

theorem rmSrc (p : Path) : Timely t (FSTools.rmSrc p) :=
  tryCatch (remove _) (fun _ _ h => by cases h; exact rmdir _)

theorem transferOne (a b : Path) (r : Bool) (p : Path) : Timely t (FSTools.transferOne a b r p) :=
  bind (makedirs _) (fun _ => bind (copyEntry _ _) (fun _ => ite (rmSrc _) (pure _)))

theorem transferTree (a b : Path) (f : Option (List Path)) (x : List Path) (r : Bool) :
    Timely t (FSTools.transferTree a b f x r) :=
  bind (ask _) (fun _ => ite (bind (query _) (fun _ => each (fun _ => transferOne _ _ _ _) _)) (throw _))

theorem linkNew (a b p : Path) : Timely t (FSTools.linkNew a b p) := bind (symlink _ _) (fun _ => pure _)

theorem linkOne (a b : Path) (d : List Path) (ow : Bool) (p : Path) : Timely t (FSTools.linkOne a b d ow p) := by
  refine ite (tryCatch (bind (mkdir _) (fun _ => pure _)) ?_) (tryCatch (linkNew _ _ _) ?_)
  · intro e k h
    split at h
    · cases h; exact pure _
    · cases h
  · intro e k h
    split at h
    · cases h; exact ite (bind (remove _) (fun _ => linkNew _ _ _)) (pure _)
    · cases h

theorem linkLoop (a b : Path) (d : List Path) (ow : Bool) : ∀ l, Timely t (FSTools.linkLoop a b d ow l)
  | [] => pure _
  | _ :: l => bind (linkOne _ _ _ _ _) (fun _ => bind (linkLoop a b d ow l) (fun _ => pure _))

theorem symlinkTree (a b : Path) (f d : List Path) (ow : Bool) : Timely t (FSTools.symlinkTree a b f d ow) :=
  bind (makedirs _) (fun _ => linkLoop _ _ _ _ _)

theorem rmOne (parent p : Path) : Timely t (Verif.rmOne parent p) := by
  refine tryCatch (remove _) ?_
  intro e k h
  unfold rmFailed at h
  split at h
  · cases h; exact rmtree _
  · cases h; exact pure _
  · cases h

theorem makeTrash (env : Env) : Timely t (Verif.makeTrash env) := by
  refine tryCatch (orRemote (mkdir _)) ?_
  intro e k h
  split at h
  · cases h; exact pure _
  · cases h

theorem updateMtime (p : Path) : Timely t (FSTools.updateMtime p) := by
  refine bind (ask _) (fun r => ?_)
  unfold touchAt
  split
  · exact pure _
  · exact pure _
  · exact touch _
  · exact touch _

theorem trashOne (env : Env) (names : List Str) (p : Path) : Timely t (Verif.trashOne env names p) := by
  refine tryCatch (bind (rename _ _) (fun _ => updateMtime _)) ?_
  intro e k h
  split at h
  · cases h; exact pure _
  · cases h

theorem copyPlain (src dst : Path) : Timely t (Verif.copyPlain src dst) := by
  refine bind (ask _) (fun b => bind (ask _) (fun same => ite (throw _) (bind (query _) (fun r => ?_))))
  split
  · exact bind (query _) (fun _ => bind (truncate _) (fun _ => write _ _ _))
  · exact throw _

theorem addExcludeFile (env : Env) : Timely t (Verif.addExcludeFile env) := orRemote (copyPlain _ _)

theorem renameAll (parent : Path) (prs : List (Path × Path)) : Timely t (Verif.renameAll parent prs) :=
  each (fun _ => rename _ _) _

theorem cleanOne (env : Env) (cutoff : Int) (e : Path) : Timely t (Verif.cleanOne env cutoff e) := by
  refine bind (query _) (fun n => ite (tryCatch (rmtree _) ?_) (pure _))
  intro x k h
  split at h
  · cases h; exact remove _
  · cases h

theorem cleanupTrash (env : Env) (period : Int) : Timely t (Verif.cleanupTrash env period) :=
  bind time (fun _ => bind (query _) (fun _ => each (fun _ => cleanOne _ _ _) _))

theorem staleOne (env : Env) (p : Path) : Timely t (Verif.staleOne env p) := by
  refine bind (ask _) (fun b => ite (pure _) (tryCatch (remove _) ?_))
  intro e k h
  unfold staleDir at h
  split at h
  · cases h; exact tryCatch (rmdir _) (fun _ _ h => by cases h; exact pure _)
  · cases h

end Timely

/-- The same for the whole state: no row of the remote database is from the future either. -/
def AgedW (c : Nat → Int) (k : Nat) (w : World) : Prop := Aged c k w.os ∧ ∀ e ∈ w.rdb, e.data ≤ c w.os.tick

/-- `m` keeps it so. -/
def TimelyW {α : Type} (m : WM α) : Prop :=
  ∀ w c k, AgedW c k w → wp m (fun _ w' => AgedW c k w') (fun _ w' => AgedW c k w') w

namespace TimelyW
variable {α β : Type}

theorem pure (a : α) : TimelyW (Pure.pure a : WM α) := fun _ _ _ h => h

theorem throw (e : Err) : TimelyW (Prog.throw e : WM α) := fun _ _ _ h => h

theorem gets (f : World → α) : TimelyW (WM.gets f) := fun _ _ _ h => h

theorem get? (e : Err) (o : Option α) : TimelyW (WM.get? e o) := by
  cases o <;> exact fun _ _ _ h => h

theorem modify {f : World → World} (h : ∀ w, (f w).os = w.os) (hr : ∀ w, ∀ e ∈ (f w).rdb, ∃ e' ∈ w.rdb, e'.data = e.data) :
    TimelyW (WM.modify f) := by
  intro w c k hw
  rw [wp_modify]
  refine ⟨by rw [h]; exact hw.1, ?_⟩
  intro e he
  obtain ⟨e', h1, h2⟩ := hr w e he
  rw [h, ← h2]
  exact hw.2 e' h1

theorem same {f : World → World} (h : ∀ w, (f w).os = w.os) (hr : ∀ w, (f w).rdb = w.rdb) : TimelyW (WM.modify f) :=
  modify h (fun w e he => ⟨e, by rw [← hr w]; exact he, rfl⟩)

theorem sys {m : OSM α} (h : ∀ t, Timely t m) : TimelyW (WM.sys m) := by
  intro w c k hw
  rw [wp_sys]
  refine wp_mono (h _ w.os c w.os.tick (Int.le_refl _) hw.1.now) ?_ ?_
  all_goals
    intro _ s' h1
    exact ⟨h1.weaken hw.1.2.2.1, fun e he => Int.le_trans (hw.2 e he) (h1.2.1 _ _ h1.2.2.1)⟩

theorem bind {m : WM α} {f : α → WM β} (hm : TimelyW m) (hf : ∀ a, TimelyW (f a)) : TimelyW (m >>= f) := by
  intro s c k h
  rw [wp_bind]
  exact wp_mono (hm s c k h) (fun a s' h' => hf a s' c k h') (fun _ _ h => h)

theorem ite {c : Prop} [Decidable c] {a b : WM α} (ha : TimelyW a) (hb : TimelyW b) :
    TimelyW (if c then a else b) := by
  split
  · exact ha
  · exact hb

theorem save {f : World → World} (h : ∀ w, (f w).os = w.os) (hr : ∀ w, (f w).rdb = w.rdb) : TimelyW (WM.save f) :=
  bind (sys (fun _ => Timely.op (by intro T fs now fs' _ _ h hf; cases hf; exact h))) (fun _ => same h hr)

theorem scanLocal (env : Env) : TimelyW (Verif.scanLocal env) :=
  bind (gets _) (fun _ => ite (bind (sys (fun _ => Timely.query _))
    (fun _ => bind (same (fun _ => rfl) (fun _ => rfl)) (fun _ => pure _))) (pure _))

theorem rescanRemote (env : Env) : TimelyW (Verif.rescanRemote env) :=
  bind (sys (fun _ => Timely.query _)) (fun _ => bind (same (fun _ => rfl) (fun _ => rfl)) (fun _ => pure _))

theorem scanRemote (env : Env) : TimelyW (Verif.scanRemote env) :=
  bind (gets _) (fun _ => ite (rescanRemote env) (pure _))

theorem exclMatches (env : Env) : TimelyW (Verif.exclMatches env) := by
  refine bind (gets _) (fun m => ?_)
  cases m with
  | some l => exact pure _
  | none => exact bind (sys (fun _ => Timely.query _)) (fun _ => bind (sys (fun _ => Timely.query _)) (fun _ =>
      bind (same (fun _ => rfl) (fun _ => rfl)) (fun _ => pure _)))

theorem addLocal (f d : List Path) (l : Bool) : TimelyW (Verif.addLocal f d l) := same (fun _ => rfl) (fun _ => rfl)

theorem addInflated (f d : List Path) : TimelyW (Verif.addInflated f d) :=
  bind (gets _) (fun _ => bind (get? _ _) (fun _ => same (fun _ => rfl) (fun _ => rfl)))

theorem inflateNew (env : Env) (f d : List Path) : TimelyW (Verif.inflateNew env f d) :=
  ite (addInflated _ _) (pure _)

theorem mem_addCore {δ : Type} {a : ADB δ} {batch : List (Path × Bool)} {x : δ} {e : Entry δ}
    (h : e ∈ ADB.addCore a batch x) : e.data = x ∨ ∃ e' ∈ a, e'.data = e.data := by
  obtain ⟨news, h1, h2⟩ := ADB.addCore_eq a batch x
  rw [h1] at h
  obtain ⟨e', h3, h4⟩ := List.mem_map.1 h
  have h5 : e'.data = e.data := by rw [← h4]; split <;> rfl
  rcases List.mem_append.1 h3 with h6 | h6
  · exact Or.inr ⟨e', h6, h5⟩
  · exact Or.inl (h5.symm.trans (h2.mem e' h6).2.2)

theorem mem_updateWhere {δ : Type} {f : Entry δ → Entry δ} {x : δ} (hf : ∀ e, (f e).data = x) {e : Entry δ} :
    ∀ (ps : List Path) (a : ADB δ), e ∈ ADB.updateWhere a ps f → e.data = x ∨ ∃ e' ∈ a, e'.data = e.data
  | [], _, h => Or.inr ⟨e, h, rfl⟩
  | p :: ps, a, h => by
    rcases mem_updateWhere hf ps _ h with h1 | ⟨e', h1, h2⟩
    · exact Or.inl h1
    · obtain ⟨e'', h3, h4⟩ := List.mem_map.1 h1
      split at h4
      · exact Or.inl (by rw [← h2, ← h4, hf])
      · exact Or.inr ⟨e'', h3, by rw [h4]; exact h2⟩

/-- Read the clock and write what it shows into some rows. -/
theorem stamp {f : Int → World → World} (h : ∀ t w, (f t w).os = w.os)
    (hr : ∀ t w, ∀ e ∈ (f t w).rdb, e.data = t ∨ ∃ e' ∈ w.rdb, e'.data = e.data) :
    TimelyW (WM.sys OSM.time >>= fun now => WM.modify (f now)) := by
  intro w c k hw
  rw [wp_bind, wp_sys, wp_time, wp_modify]
  refine ⟨by rw [h]; exact hw.1, ?_⟩
  intro e he
  rw [h]
  rcases hr _ _ e he with h1 | ⟨e', h1, h2⟩
  · rw [h1, hw.1.1]
  · rw [← h2]; exact hw.2 e' h1

theorem addRemote (f d : List Path) : TimelyW (Verif.addRemote f d) :=
  stamp (fun _ _ => rfl) (fun _ _ _ he => mem_addCore he)

theorem rmBoth (ps : List Path) : TimelyW (Verif.rmBoth ps) :=
  modify (fun _ => rfl) (fun _ e he => ⟨e, (List.mem_filter.1 he).1, rfl⟩)

theorem rmFiles (env : Env) (parent : Path) (ps : List Path) : TimelyW (Verif.rmFiles env parent ps) :=
  bind (sys (fun _ => Timely.each (fun _ => Timely.rmOne _ _) _)) (fun _ => rmBoth _)

theorem rmLocalFiles (env : Env) (ps : List Path) : TimelyW (Verif.rmLocalFiles env ps) :=
  bind (exclMatches env) (fun _ => rmFiles env _ _)

theorem rmRemoteFiles (env : Env) (ps : List Path) : TimelyW (Verif.rmRemoteFiles env ps) := rmFiles env _ _

theorem rmExcludedFiles (env : Env) (ps : List Path) : TimelyW (Verif.rmExcludedFiles env ps) :=
  bind (sys (fun _ => Timely.query _)) (fun _ => bind (gets _) (fun _ => rmRemoteFiles env _))

theorem renameFiles {moves : OSM Unit} (hm : ∀ t, Timely t moves) (prs : List (Path × Path)) :
    TimelyW (Verif.renameFiles moves prs) :=
  bind (sys hm) (fun _ => bind (gets _) (fun _ => bind (same (fun _ => rfl) (fun _ => rfl)) (fun _ =>
    bind (addLocal _ _ _) (fun _ => addRemote _ _))))

theorem handleConflicts (env : Env) (a b : List Path) : TimelyW (Verif.handleConflicts env a b) :=
  bind (scanLocal env) (fun _ => bind (scanRemote env) (fun _ => bind (gets _) (fun _ =>
    bind (sys (fun _ => Timely.time)) (fun _ => bind (sys (fun _ => Timely.query _)) (fun _ =>
    bind (renameFiles (fun _ => Timely.renameAll _ _) _) (fun _ =>
    bind (renameFiles (fun _ => Timely.orRemote (Timely.renameAll _ _)) _) (fun _ => pure _)))))))

theorem trashFiles (env : Env) (ps : List Path) : TimelyW (Verif.trashFiles env ps) :=
  bind (sys (fun _ => Timely.makeTrash env)) (fun _ => bind (sys (fun _ => Timely.query _)) (fun _ =>
    bind (sys (fun _ => Timely.each (fun _ => Timely.trashOne _ _ _) _)) (fun _ => rmBoth _)))

theorem removeStale (env : Env) (ps : List Path) : TimelyW (Verif.removeStale env ps) :=
  bind (scanLocal env) (fun _ => bind (exclMatches env) (fun _ => bind (gets _) (fun _ =>
    sys (fun _ => Timely.each (fun _ => Timely.staleOne _ _) _))))

theorem updateLocal (env : Env) (ps : List Path) : TimelyW (Verif.updateLocal env ps) :=
  bind (removeStale env _) (fun _ => bind (gets _) (fun _ => bind (sys (fun _ => Timely.orRemote
    (Timely.bind (Timely.symlinkTree _ _ _ _ _) (fun _ => Timely.bind (Timely.transferTree _ _ _ _ _)
      (fun _ => Timely.pure _))))) (fun _ => same (fun _ => rfl) (fun _ => rfl))))

theorem updateRemote (env : Env) (ps : List Path) : TimelyW (Verif.updateRemote env ps) := by
  refine bind (sys (fun _ => Timely.orRemote (Timely.transferTree _ _ _ _ _))) (fun _ => stamp (fun _ _ => rfl) ?_)
  intro t w e he
  exact mem_updateWhere (f := fun e => { e with data := t }) (fun _ => rfl) ps w.rdb he

theorem syncScan (env : Env) : TimelyW (Verif.syncScan env) :=
  bind (sys (fun _ => Timely.makedirs _)) (fun _ => bind (sys (fun _ => Timely.addExcludeFile env)) (fun _ =>
    bind (scanLocal env) (fun _ => bind (scanRemote env) (fun _ => bind (exclMatches env) (fun _ =>
    bind (gets _) (fun _ => bind (gets _) (fun _ => bind (gets _) (fun _ => bind (get? _ _) (fun _ =>
    bind (inflateNew _ _ _) (fun _ => bind (addRemote _ _) (fun _ => bind (addLocal _ _ _) (fun _ =>
    pure _))))))))))))

theorem syncRemote (env : Env) (d : DeletedPaths) (n m : UpdatedPaths) : TimelyW (Verif.syncRemote env d n m) :=
  bind (rmLocalFiles _ _) (fun _ => bind (rmRemoteFiles _ _) (fun _ => bind (trashFiles _ _) (fun _ =>
    bind (handleConflicts _ _ _) (fun _ => bind (inflateNew _ _ _) (fun _ => bind (addRemote _ _) (fun _ =>
    bind (addLocal _ _ _) (fun _ => updateRemote _ _)))))))

theorem syncSelect (env : Env) : TimelyW (Verif.syncSelect env) :=
  bind (exclMatches _) (fun _ => bind (scanRemote _) (fun _ => bind (scanLocal _) (fun _ => bind (get? _ _) (fun _ =>
    bind (rescanRemote _) (fun _ => bind (gets _) (fun _ => bind (gets _) (fun _ => bind (get? _ _) (fun _ =>
    bind (get? _ _) (fun _ => pure _)))))))))

theorem syncCleanup (env : Env) : TimelyW (Verif.syncCleanup env) := by
  unfold Verif.syncCleanup
  split
  · exact pure _
  · exact ite (pure _) (sys (fun _ => Timely.cleanupTrash _ _))

theorem setupDir (env : Env) (u : List Path) : TimelyW (Verif.setupDir env u) :=
  bind (scanRemote _) (fun _ => bind (addLocal _ _ _) (fun _ => bind (addRemote _ _) (fun _ => bind (gets _) (fun _ =>
    bind (sys (fun _ => Timely.symlinkTree _ _ _ _ _)) (fun _ => pure _)))))

theorem setupFromLocal (env : Env) : TimelyW (Verif.setupFromLocal env) :=
  bind (scanLocal _) (fun _ => bind (exclMatches _) (fun _ =>
    bind (sys (fun _ => Timely.orRemote (Timely.transferTree _ _ _ _ _))) (fun _ => setupDir _ _)))

theorem setupFromRemote (env : Env) : TimelyW (Verif.setupFromRemote env) :=
  bind (scanRemote _) (fun _ => setupDir _ _)

end TimelyW

/-- What has been saved says that nothing has changed since the last sync. -/
def Settled (w : World) : Prop :=
  (∀ e ∈ w.os.fs, e.2.mtime ≤ w.lastSaved) ∧ ∀ e ∈ w.rdbSaved, e.data ≤ w.lastSaved

/-- The end of a sync and of an initialisation. -/
theorem settled_syncSave {w : World} {c : Nat → Int} {k : Nat} (h : AgedW c k w) :
    wp syncSave (fun _ w' => Settled w') (fun _ _ => True) w := by
  obtain ⟨⟨rfl, hm, _, hfs⟩, hr⟩ := h
  unfold syncSave writeRemote writeProfile
  rw [wp_bind]
  apply wp_save
  · trivial
  · rw [wp_bind, wp_sys, wp_time, wp_bind, wp_modify, wp_bind]
    apply wp_save
    · trivial
    · apply wp_save
      · trivial
      · have h1 := hm _ _ (Nat.le_succ w.os.tick)
        exact ⟨fun e he => Int.le_trans (hfs e he) h1, fun e he => Int.le_trans (hr e he) h1⟩

/-- After a successful sync. -/
theorem settled_sync (env : Env) {w : World} {c : Nat → Int} {k : Nat} (h : AgedW c k w) :
    wp (sync env) (fun _ w' => Settled w') (fun _ _ => True) w := by
  unfold sync
  rw [wp_bind]
  refine wp_mono (TimelyW.syncScan env w c k h) ?_ (fun _ _ _ => trivial)
  intro x w1 h1
  rw [wp_bind]
  refine wp_mono (TimelyW.syncRemote env _ _ _ w1 c k h1) ?_ (fun _ _ _ => trivial)
  intro _ w2 h2
  rw [wp_bind]
  refine wp_mono (TimelyW.syncSelect env w2 c k h2) ?_ (fun _ _ _ => trivial)
  intro y w3 h3
  unfold syncLocal
  rw [wp_bind]
  refine wp_mono (TimelyW.updateLocal env _ w3 c k h3) ?_ (fun _ _ _ => trivial)
  intro _ w4 h4
  rw [wp_bind]
  refine wp_mono (TimelyW.rmExcludedFiles env _ w4 c k h4) ?_ (fun _ _ _ => trivial)
  intro _ w5 h5
  rw [wp_bind]
  refine wp_mono (TimelyW.syncCleanup env w5 c k h5) ?_ (fun _ _ _ => trivial)
  intro _ w6 h6
  exact settled_syncSave h6

/-- After a successful initialisation. -/
theorem settled_init (env : Env) (add : Bool) {w : World} {c : Nat → Int} {k : Nat} (h : AgedW c k w) :
    wp (init env add) (fun _ w' => Settled w') (fun _ _ => True) w := by
  unfold init
  rw [wp_bind]
  refine wp_mono (TimelyW.sys (fun _ => Timely.makedirs _) w c k h) ?_ (fun _ _ _ => trivial)
  intro _ w1 h1
  rw [wp_bind]
  refine wp_mono (TimelyW.sys (fun _ => Timely.makedirs _) w1 c k h1) ?_ (fun _ _ _ => trivial)
  intro _ w2 h2
  rw [wp_bind]
  refine wp_mono (TimelyW.sys (fun _ => Timely.makedirs _) w2 c k h2) ?_ (fun _ _ _ => trivial)
  intro _ w3 h3
  have tail : ∀ w4, AgedW c k w4 → wp (sys (addExcludeFile env) >>= fun _ => syncSave) (fun _ w' => Settled w')
      (fun _ _ => True) w4 := by
    intro w4 h4
    rw [wp_bind]
    refine wp_mono (TimelyW.sys (fun _ => Timely.addExcludeFile env) w4 c k h4) ?_ (fun _ _ _ => trivial)
    intro _ w5 h5
    exact settled_syncSave h5
  cases add
  · exact wp_bind.2 (wp_mono (TimelyW.setupFromLocal env w3 c k h3) (fun _ w4 h4 => tail w4 h4) (fun _ _ _ => trivial))
  · exact wp_bind.2 (wp_mono (TimelyW.setupFromRemote env w3 c k h3) (fun _ w4 h4 => tail w4 h4) (fun _ _ _ => trivial))

end Verif
