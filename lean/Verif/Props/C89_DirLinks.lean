import Verif.DeepCommands
import Verif.ExampleWorlds
import Verif.Transfer
/-!
C89: symbolic links to directories. With paths resolved as the kernel does, `transfer_tree` copies, and removes, the files
of the directory that a link leads to through the link.
-/
namespace Verif
open Prog OSM Call FSTools WM

namespace Deep

theorem bind_ok {σ α β : Type} {m : Prog σ α} {f : α → Prog σ β} {s s' : σ} {a : α} (h : m s = (.ok a, s')) :
    (m >>= f) s = f a s' := by
  show (match m s with
    | (.ok a, s') => f a s'
    | (.error e, s') => (.error e, s')) = _
  rw [h]

theorem bind_error {σ α β : Type} {m : Prog σ α} {f : α → Prog σ β} {s s' : σ} {e : Err} (h : m s = (.error e, s')) :
    (m >>= f) s = (.error e, s') := by
  show (match m s with
    | (.ok a, s') => f a s'
    | (.error e, s') => (.error e, s')) = _
  rw [h]

/-! ### Where a path leads -/

/-- Whether a link at the end is followed makes no difference if there is none. -/
theorem real_follow {fs : FS} {z : Path} (hz : ∀ t m, fs.get z ≠ some (.link t m)) :
    ∀ n b r, real fs false n b r = .ok z → real fs true n b r = .ok z
  | 0, _, _, h => by cases h
  | n + 1, b, r, h => by
    unfold real at h ⊢
    induction r generalizing b with
    | nil => exact h
    | cons c r ih =>
      unfold step at h ⊢
      split
      · rename_i h1; rw [if_pos h1] at h; exact ih _ h
      · rename_i h1; rw [if_neg h1] at h
        split
        · rename_i h2; rw [if_pos h2] at h; exact ih _ h
        · rename_i h2; rw [if_neg h2] at h
          cases hg : fs.get (b ++ [c]) with
          | none => rw [hg] at h; exact h
          | some x =>
            rw [hg] at h
            cases x with
            | file => exact h
            | dir => exact ih _ h
            | link t m =>
              dsimp only at h ⊢
              by_cases h3 : r = []
              · rw [if_pos ⟨h3, rfl⟩] at h
                cases h
                exact absurd hg (hz _ _)
              · rw [if_neg (by simp [h3])] at h ⊢
                exact real_follow hz n _ _ h

/-- The place is the same when the file there has been removed. -/
theorem real_rm {fs : FS} {z : Path} {k : Nat} {m : Int} {a : Nat} (hz : fs.get z = some (.file k m a)) (fol : Bool) :
    ∀ n b r, real fs fol n b r = .ok z → real (fs.rm z) fol n b r = .ok z
  | 0, _, _, h => by cases h
  | n + 1, b, r, h => by
    unfold real at h ⊢
    induction r generalizing b with
    | nil => exact h
    | cons c r ih =>
      unfold step at h ⊢
      split
      · rename_i h1; rw [if_pos h1] at h; exact ih _ h
      · rename_i h1; rw [if_neg h1] at h
        split
        · rename_i h2; rw [if_pos h2] at h; exact ih _ h
        · rename_i h2; rw [if_neg h2] at h
          by_cases hc : b ++ [c] = z
          · rw [hc, hz] at h
            rw [hc, FS.get_rm_self fs (by rw [← hc]; simp)]
            dsimp only at h ⊢
            by_cases h3 : r = []
            · rw [if_pos h3]
            · rw [if_neg h3] at h; cases h
          · rw [FS.get_rm_ne fs hc]
            cases hg : fs.get (b ++ [c]) with
            | none => rw [hg] at h; exact h
            | some x =>
              rw [hg] at h
              cases x with
              | file => exact h
              | dir => exact ih _ h
              | link t m' =>
                dsimp only at h ⊢
                by_cases h3 : r = [] ∧ fol = false
                · rw [if_pos h3] at h ⊢; exact h
                · rw [if_neg h3] at h ⊢
                  exact real_rm hz fol n _ _ h

end Deep

/-- C89 in full is false. If the source and the destination of a round of the loop of `transfer_tree` lead to the same
regular file, it is removed, and then the round fails with `FileNotFoundError`. This is so for each file of a directory
to which a link of the remote directory leads, as the local link leads to the remote link. -/
theorem C89_through_fails {s : OS} (wf : s.fs.WF) {src dst z : Path} {c : Nat} {m : Int} {b : Nat}
    (hs : Deep.place s.fs src = .ok z) (hd : Deep.place s.fs dst = .ok z) (hz : s.fs.get z = some (.file c m b))
    (hf : s.fuel ≠ 0) :
    (Deep.copyEntry src dst s).1 = .error .notFound ∧ (Deep.copyEntry src dst s).2.fs.get z = none ∧
      ∀ q, q ≠ z → (Deep.copyEntry src dst s).2.fs.get q = s.fs.get q := by
  have hnl : ∀ t m, s.fs.get z ≠ some (.link t m) := by intro t m h; rw [hz] at h; cases h
  have hst : ∀ p, Deep.place s.fs p = .ok z → Deep.stat s.fs p = .ok (z, .file c m b) := by
    intro p hp
    have : Deep.target s.fs p = .ok z := Deep.real_follow hnl _ _ _ hp
    unfold Deep.stat
    rw [this]
    dsimp only
    rw [hz]
  have hz0 : z ≠ [] := by rintro rfl; simp at hz
  have hst' : ∀ p, Deep.place s.fs p = .ok z → Deep.stat (s.fs.rm z) p = .error .notFound := by
    intro p hp
    have h1 : Deep.target s.fs p = .ok z := Deep.real_follow hnl _ _ _ hp
    have h2 : Deep.target (s.fs.rm z) p = .ok z := Deep.real_rm hz _ _ _ _ h1
    unfold Deep.stat
    rw [h2]
    dsimp only
    rw [FS.get_rm_self _ hz0]
  obtain ⟨n, hn⟩ : ∃ n, s.fuel = n + 1 := Nat.exists_eq_succ_of_ne_zero hf
  have hrm : s.fs.remove z = .ok (s.fs.rm z) := by
    unfold FS.remove FS.lstat
    rw [wf.pathErr hz]
    dsimp only
    rw [hz]
  let s' : OS := { s with fs := s.fs.rm z, fuel := n, tick := s.tick + 1 }
  have h1 : Deep.copy2 src dst s = (.error .sameFile, s) := by
    have hp : Deep.pathIsDir s.fs dst = false := by unfold Deep.pathIsDir; rw [hst _ hd]; rfl
    have hsame : Deep.sameFile s.fs src dst = true := by unfold Deep.sameFile; rw [hst _ hs, hst _ hd]; simp
    show (Deep.copyTo src (if Deep.pathIsDir s.fs dst then dst ++ [src.getLastD []] else dst)) s = _
    rw [hp]
    show (if Deep.sameFile s.fs src dst then throw .sameFile else _ : OSM Unit) s = _
    rw [hsame]
    rfl
  have h2 : Deep.remove dst s = (.ok (), s') := by
    unfold Deep.remove OSM.op Deep.at_
    rw [hn]
    dsimp only
    rw [hd]
    dsimp only
    rw [hrm]
  have h3 : Deep.copy2 src dst s' = (.error .notFound, s') := by
    have hp : Deep.pathIsDir s'.fs dst = false := by
      unfold Deep.pathIsDir; rw [show Deep.stat s'.fs dst = _ from hst' _ hd]
    have hsame : Deep.sameFile s'.fs src dst = false := by
      unfold Deep.sameFile; rw [show Deep.stat s'.fs src = _ from hst' _ hs]
    have hl : Deep.lstat s'.fs src = .error .notFound := by
      unfold Deep.lstat Deep.at_
      have : Deep.place s'.fs src = .ok z := Deep.real_rm hz _ _ _ _ hs
      rw [this]
      dsimp only
      have hw : s'.fs.WF := wf.remove hrm
      unfold FS.lstat
      cases hpe : s'.fs.pathErr z with
      | none =>
        dsimp only
        rw [show s'.fs.get z = none from FS.get_rm_self _ hz0]
      | some e =>
        have : s'.fs.pathErr z = none := by
          rw [← wf.pathErr hz]
          exact FS.pathErr_congr (fun q _ hq => FS.get_rm_ne _ hq)
        rw [this] at hpe; cases hpe
    have key : wp (Deep.copy2 src dst) (fun _ _ => False) (fun e t => e = .notFound ∧ t = s') s' := by
      unfold Deep.copy2
      rw [wp_bind, wp_ask, hp]
      simp only [Bool.false_eq_true, if_false]
      unfold Deep.copyTo
      rw [wp_bind, wp_ask, hsame]
      simp only [Bool.false_eq_true, if_false]
      rw [wp_bind, wp_ask, hl, show Deep.stat s'.fs src = _ from hst' _ hs]
      dsimp only
      rw [wp_throw]
      exact ⟨rfl, rfl⟩
    cases hr : Deep.copy2 src dst s' with
    | mk r t =>
      cases r with
      | ok u => exact absurd (wp_ok key hr) id
      | error e =>
        obtain ⟨h4, h5⟩ := wp_error key hr
        rw [h4, h5]
  have h4 : Deep.copyEntry src dst s = (.error .notFound, s') := by
    unfold Deep.copyEntry Prog.tryCatch
    rw [h1]
    show (if Err.sameFile = Err.killed then _ else (do Deep.remove dst; Deep.copy2 src dst : OSM Unit) s) = _
    rw [if_neg (by decide)]
    rw [Deep.bind_ok h2]
    exact h3
  rw [h4]
  exact ⟨rfl, FS.get_rm_self _ hz0, fun q hq => FS.get_rm_ne _ hq⟩

/-! ### Without links -/

namespace Deep

/-- There are no links, and all names are good. -/
def Tame (fs : FS) : Prop := ∀ e ∈ fs, e.2.isLink = false ∧ GoodPath e.1

theorem Tame.nolink {fs : FS} (h : Tame fs) {p : Path} {t : Str} {m : Int} : fs.get p ≠ some (.link t m) := by
  intro hg
  have h0 : p ≠ [] := by rintro rfl; simp at hg
  have := (h _ (FS.mem_of_get h0 hg)).1
  cases this

theorem Tame.rm {fs : FS} (h : Tame fs) (p : Path) : Tame (fs.rm p) :=
  fun e he => h e (List.mem_filter.1 he).1

theorem Tame.set {fs : FS} (h : Tame fs) {p : Path} {n : Node} (hp : GoodPath p) (hn : n.isLink = false) :
    Tame (fs.set p n) := by
  intro e he
  rcases List.mem_cons.1 he with rfl | he
  · exact ⟨hn, hp⟩
  · exact h.rm p e he

theorem pathErr_extend {fs : FS} {p r : Path} (hr : r ≠ []) (hp : fs.pathErr p = none) (hd : fs.isDir p = false) :
    fs.pathErr (p ++ r) = match fs.get p with
      | some _ => some .notDir
      | none => some .notFound := by
  unfold FS.pathErr at *
  have hlen : (p ++ r).length = p.length + (1 + (r.length - 1)) := by
    have := List.length_pos_iff.2 hr
    simp; omega
  rw [hlen, List.range_add, List.map_append, List.findSome?_append]
  have h1 : (List.range p.length).map (p ++ r).take = (List.range p.length).map p.take := by
    apply List.map_congr_left
    intro i hi
    have := List.mem_range.1 hi
    rw [List.take_append_of_le_length (by omega)]
  rw [h1, hp, Option.none_or, List.range_add]
  simp only [List.map_append, List.map_map, List.findSome?_append]
  have h2 : List.range 1 = [0] := rfl
  rw [h2]
  simp only [List.map_cons, List.map_nil, Function.comp, Nat.add_zero, List.take_left, List.findSome?_cons,
    List.findSome?_nil]
  cases hg : fs.get p with
  | none => simp
  | some x =>
    cases x with
    | dir m b => simp [FS.isDir, hg, Node.isDir] at hd
    | _ => simp

theorem step_tame {fs : FS} (h : Tame fs) {fol : Bool} {k : Path → List Str → Except Err Path} (r : Path) :
    ∀ b, GoodPath r → fs.pathErr b = none → (r ≠ [] → fs.isDir b = true) →
      step fs fol k b r = match fs.pathErr (b ++ r) with
        | some e => .error e
        | none => .ok (b ++ r) := by
  induction r with
  | nil =>
    intro b _ hb _
    simp [step, hb]
  | cons c r ih =>
    intro b hr hb hd
    have hc := hr c List.mem_cons_self
    have hd := hd (by simp)
    have hbc : fs.pathErr (b ++ [c]) = none := by
      rw [FS.pathErr_none_iff] at hb ⊢
      intro q hq hne
      by_cases hqb : q = b
      · rw [hqb]; exact hd
      · refine hb q ?_ hqb
        rcases List.prefix_concat_iff.1 hq with h1 | h1
        · exact absurd h1 hne
        · exact h1
    unfold step
    rw [if_neg (fun h1 => h1.elim hc.1 hc.2.2.1), if_neg hc.2.2.2]
    have happ : b ++ c :: r = (b ++ [c]) ++ r := by simp
    cases hg : fs.get (b ++ [c]) with
    | none =>
      dsimp only
      by_cases h0 : r = []
      · subst h0; rw [if_pos rfl, hbc]
      · rw [if_neg h0, happ, pathErr_extend h0 hbc (by simp [FS.isDir, hg]), hg]
    | some x =>
      cases x with
      | file c' m' b' =>
        dsimp only
        by_cases h0 : r = []
        · subst h0; rw [if_pos rfl, hbc]
        · rw [if_neg h0, happ, pathErr_extend h0 hbc (by simp [FS.isDir, hg, Node.isDir]), hg]
      | dir m' b' =>
        dsimp only
        rw [happ]
        exact ih (b ++ [c]) (fun x hx => hr x (List.mem_cons_of_mem _ hx)) hbc
          (fun _ => by simp [FS.isDir, hg, Node.isDir])
      | link t m => exact absurd hg h.nolink

theorem real_tame {fs : FS} (h : Tame fs) {fol : Bool} {p : Path} (hp : GoodPath p) (n : Nat) :
    real fs fol (n + 1) [] p = match fs.pathErr p with
      | some e => .error e
      | none => .ok p := by
  have := step_tame h (fol := fol) (k := real fs fol n) p [] hp (by simp [FS.pathErr]) (by simp [FS.isDir, Node.isDir])
  simpa [real] using this

theorem at_tame {α : Type} {fs : FS} (h : Tame fs) {p : Path} (hp : GoodPath p) {f : Path → Except Err α}
    (hf : ∀ e, fs.pathErr p = some e → f p = .error e) : at_ fs p f = f p := by
  unfold at_ place
  rw [real_tame h hp]
  cases he : fs.pathErr p with
  | none => rfl
  | some e => rw [hf e he]

theorem stat_tame {fs : FS} (h : Tame fs) {p : Path} (hp : GoodPath p) : stat fs p = fs.stat p := by
  unfold stat target FS.stat
  rw [real_tame h hp]
  cases he : fs.pathErr p with
  | none => rw [FS.follow_nonlink he (fun _ _ => h.nolink)]; rfl
  | some e => rw [FS.follow]; simp [he]

theorem lstat_tame {fs : FS} (h : Tame fs) {p : Path} (hp : GoodPath p) : lstat fs p = fs.lstat p :=
  at_tame h hp (fun e he => by unfold FS.lstat; rw [he])

/-- Two programs that do the same without links. -/
def Same {α : Type} (m' m : OSM α) : Prop := ∀ s, Tame s.fs → m' s = m s ∧ Tame (m s).2.fs

theorem Same.rfl' {α : Type} {m : OSM α} (h : ∀ s, Tame s.fs → Tame (m s).2.fs) : Same m m := fun s hs => ⟨rfl, h s hs⟩

theorem Same.pure {α : Type} (a : α) : Same (pure a : OSM α) (pure a) := .rfl' (fun _ h => h)

theorem Same.throw {α : Type} (e : Err) : Same (Prog.throw e : OSM α) (Prog.throw e) := .rfl' (fun _ h => h)

theorem Same.bind {α β : Type} {m' m : OSM α} {f' f : α → OSM β} (h : Same m' m) (hf : ∀ a, Same (f' a) (f a)) :
    Same (m' >>= f') (m >>= f) := by
  intro s hs
  obtain ⟨h1, h2⟩ := h s hs
  cases hm : m s with
  | mk r t =>
    rw [hm] at h1 h2
    cases r with
    | ok a =>
      rw [bind_ok hm, bind_ok h1]
      exact hf a t h2
    | error e =>
      rw [bind_error hm, bind_error h1]
      exact ⟨rfl, h2⟩

theorem Same.tryCatch {α : Type} {m' m : OSM α} {k' k : Err → Option (OSM α)} (h : Same m' m)
    (hk : ∀ e, (k' e = none ∧ k e = none) ∨ ∃ a' a, k' e = some a' ∧ k e = some a ∧ Same a' a) :
    Same (Prog.tryCatch m' k') (Prog.tryCatch m k) := by
  intro s hs
  obtain ⟨h1, h2⟩ := h s hs
  unfold Prog.tryCatch
  rw [h1]
  cases hm : m s with
  | mk r t =>
    rw [hm] at h2
    cases r with
    | ok a => exact ⟨rfl, h2⟩
    | error e =>
      dsimp only
      by_cases he : e = .killed
      · rw [if_pos he, if_pos he]; exact ⟨rfl, h2⟩
      · rw [if_neg he, if_neg he]
        rcases hk e with ⟨h3, h4⟩ | ⟨a', a, h3, h4, h5⟩
        · rw [h3, h4]; exact ⟨rfl, h2⟩
        · rw [h3, h4]; exact h5 t h2

theorem Same.query {α : Type} {f' f : FS → Except Err α} (h : ∀ fs, Tame fs → f' fs = f fs) :
    Same (OSM.query f') (OSM.query f) := by
  intro s hs
  unfold OSM.query
  rw [h _ hs]
  exact ⟨rfl, hs⟩

theorem Same.ask {α : Type} {f' f : FS → α} (h : ∀ fs, Tame fs → f' fs = f fs) :
    Same (OSM.ask f') (OSM.ask f) := by
  intro s hs
  unfold OSM.ask
  rw [h _ hs]
  exact ⟨rfl, hs⟩

theorem Same.op {f' f : FS → Int → Except Err FS} (h : ∀ fs t, Tame fs → f' fs t = f fs t)
    (hf : ∀ fs t fs', Tame fs → f fs t = .ok fs' → Tame fs') : Same (OSM.op f') (OSM.op f) := by
  intro s hs
  unfold OSM.op
  rw [h _ _ hs]
  refine ⟨rfl, ?_⟩
  cases s.fuel with
  | zero => exact hs
  | succ n =>
    dsimp only
    cases hr : f s.fs (s.clk s.tick) with
    | ok fs => exact hf _ _ _ hs hr
    | error e => exact hs

theorem Same.each {γ : Type} {f' f : γ → OSM Unit} {l : List γ} (h : ∀ x ∈ l, Same (f' x) (f x)) :
    Same (Prog.each f' l) (Prog.each f l) := by
  induction l with
  | nil => exact .pure ()
  | cons x l ih =>
    exact (h x List.mem_cons_self).bind (fun _ => ih (fun y hy => h y (List.mem_cons_of_mem _ hy)))

/-- A question whose answer has a property. -/
theorem Same.queryBind {α β : Type} {g' g : FS → Except Err α} {f' f : α → OSM β} {P : α → Prop}
    (h : ∀ fs, Tame fs → g' fs = g fs ∧ ∀ a, g fs = .ok a → P a) (hf : ∀ a, P a → Same (f' a) (f a)) :
    Same (OSM.query g' >>= f') (OSM.query g >>= f) := by
  intro s hs
  obtain ⟨h1, h2⟩ := h _ hs
  cases hg : g s.fs with
  | ok a =>
    have e1 : OSM.query g s = (.ok a, s) := by unfold OSM.query; rw [hg]
    have e2 : OSM.query g' s = (.ok a, s) := by unfold OSM.query; rw [h1, hg]
    rw [bind_ok e1, bind_ok e2]
    exact hf a (h2 a hg) s hs
  | error e =>
    have e1 : OSM.query g s = (.error e, s) := by unfold OSM.query; rw [hg]
    have e2 : OSM.query g' s = (.error e, s) := by unfold OSM.query; rw [h1, hg]
    rw [bind_error e1, bind_error e2]
    exact ⟨rfl, hs⟩

variable {p q src dst : Path}

theorem same_remove (hp : GoodPath p) : Same (remove p) (Call.remove p) := by
  refine .op (fun fs _ h => at_tame h hp (fun e he => by unfold FS.remove FS.lstat; rw [he])) ?_
  intro fs _ fs' h hr
  obtain ⟨_, _, _, _, rfl⟩ := FS.remove_ok hr
  exact h.rm p

theorem same_rmdir (hp : GoodPath p) : Same (rmdir p) (Call.rmdir p) := by
  refine .op (fun fs _ h => at_tame h hp (fun e he => by unfold FS.rmdir FS.lstat; rw [he])) ?_
  intro fs _ fs' h hr
  obtain ⟨_, _, _, _, _, rfl⟩ := FS.rmdir_ok hr
  exact h.rm p

theorem create_err {fs : FS} {e : Err} {n : Node} (he : fs.pathErr p = some e) : fs.create p n = .error e := by
  unfold FS.create FS.lstat
  simp [he]

theorem same_mkdir (hp : GoodPath p) : Same (mkdir p) (Call.mkdir p) := by
  refine .op (fun fs _ h => at_tame h hp (fun e he => create_err he)) ?_
  intro fs t fs' h hr
  obtain ⟨_, _, rfl⟩ := FS.create_ok hr
  exact h.set hp rfl

theorem pathIsDir_tame {fs : FS} (h : Tame fs) (hp : GoodPath p) : pathIsDir fs p = fs.pathIsDir p := by
  unfold pathIsDir FS.pathIsDir
  rw [stat_tame h hp]
  rfl

theorem pathExists_tame {fs : FS} (h : Tame fs) (hp : GoodPath p) : pathExists fs p = fs.pathExists p := by
  unfold pathExists FS.pathExists
  rw [stat_tame h hp]
  rfl

theorem Same.ite {α : Type} {b : Bool} {m' m n' n : OSM α} (h : Same m' m) (h' : Same n' n) :
    Same (if b then m' else n') (if b then m else n) := by
  cases b
  · simpa using h'
  · simpa using h

theorem same_mkdirOk (hp : GoodPath p) : Same (mkdirOk p) (Call.mkdirOk p) :=
  .tryCatch (same_mkdir hp) (fun e => Or.inr ⟨_, _, rfl, rfl,
    .bind (.ask (fun _ h => pathIsDir_tame h hp)) (fun _ => .ite (.pure ()) (.throw e))⟩)

theorem same_makedirsRev : ∀ (r : Path), GoodPath r.reverse → Same (makedirsRev r) (Call.makedirsRev r)
  | [], h => same_mkdirOk h
  | c :: r, h => by
    have hr : GoodPath r.reverse := by
      rw [List.reverse_cons, goodPath_append] at h
      exact h.1
    refine .bind (.ask (fun _ h => pathExists_tame h hr)) (fun b => .ite (same_mkdirOk h) ?_)
    refine .bind (.tryCatch (same_makedirsRev r hr) (fun e => ?_)) (fun _ => same_mkdirOk h)
    by_cases he : e = .exists_
    · rw [if_pos he]; exact Or.inr ⟨_, _, rfl, rfl, .pure ()⟩
    · rw [if_neg he]; exact Or.inl ⟨rfl, rfl⟩

theorem same_makedirs (hp : GoodPath p) : Same (makedirs p) (Call.makedirs p) :=
  same_makedirsRev _ (by simpa using hp)

theorem same_update {f : Node → Int → Node} (hp : GoodPath p) (hf : ∀ n t, n.isLink = false → (f n t).isLink = false) :
    Same (update p f) (update p f) := by
  refine .op (fun _ _ _ => rfl) ?_
  intro fs t fs' h hr
  cases hg : fs.get p with
  | none => rw [hg] at hr; cases hr
  | some n =>
    rw [hg] at hr
    cases hr
    refine h.set hp (hf _ _ ?_)
    cases n with
    | link t m => exact absurd hg h.nolink
    | _ => rfl

theorem same_truncate (hp : GoodPath p) : Same (truncate p) (truncate p) := by
  refine .op (fun _ _ _ => rfl) ?_
  intro fs t fs' h hr
  split at hr
  · cases hr
  · cases hr
  · cases hr; exact h.set hp rfl

theorem same_copyFile {c : Nat} {m : Int} {b : Nat} (hp : GoodPath dst) :
    Same (copyFile c m b dst) (Call.copyFile c m b dst) := by
  refine .queryBind (P := fun q => GoodPath q) (fun fs h => ?_) (fun q hq => ?_)
  · unfold target
    rw [real_tame h hp]
    cases he : fs.pathErr dst with
    | none =>
      rw [FS.follow_nonlink he (fun _ _ => h.nolink)]
      exact ⟨rfl, fun a ha => by cases ha; exact hp⟩
    | some e =>
      rw [FS.follow]
      simp only [he]
      exact ⟨trivial, fun a ha => by cases ha⟩
  · refine .bind (same_truncate hq) (fun _ => .bind (same_update hq (fun _ _ _ => rfl)) (fun _ => same_update hq ?_))
    intro n t hn
    cases n with
    | link t m => cases hn
    | _ => rfl

theorem sameFile_tame {fs : FS} (h : Tame fs) (hp : GoodPath p) (hq : GoodPath q) :
    sameFile fs p q = Call.sameFile fs p q := by
  unfold sameFile Call.sameFile
  rw [stat_tame h hp, stat_tame h hq]
  rfl

/-- A program that depends on a question. -/
theorem Same.askBind {α β : Type} {g' g : FS → α} {f' f : α → OSM β} {P : α → Prop}
    (h : ∀ fs, Tame fs → g' fs = g fs ∧ P (g fs)) (hf : ∀ a, P a → Same (f' a) (f a)) :
    Same (OSM.ask g' >>= f') (OSM.ask g >>= f) := by
  intro s hs
  obtain ⟨h1, h2⟩ := h _ hs
  have e1 : OSM.ask g s = (.ok (g s.fs), s) := rfl
  have e2 : OSM.ask g' s = (.ok (g s.fs), s) := by unfold OSM.ask; rw [h1]
  rw [bind_ok e1, bind_ok e2]
  exact hf _ h2 s hs

theorem same_copyTo (hs : GoodPath src) (hd : GoodPath dst) : Same (copyTo src dst) (Call.copyTo src dst) := by
  refine .bind (.ask (fun _ h => sameFile_tame h hs hd)) (fun b => .ite (.throw _) ?_)
  refine .askBind (P := fun r => ∀ t m, r.1 ≠ .ok (.link t m)) (fun fs h => ?_) (fun r hr => ?_)
  · refine ⟨by rw [lstat_tame h hs, stat_tame h hs], ?_⟩
    intro t m he
    dsimp only at he
    unfold FS.lstat at he
    cases hp : fs.pathErr src with
    | some e => rw [hp] at he; cases he
    | none =>
      rw [hp] at he
      dsimp only at he
      cases hg : fs.get src with
      | none => rw [hg] at he; cases he
      | some n => rw [hg] at he; cases he; exact h.nolink hg
  · obtain ⟨r1, r2⟩ := r
    cases r1 with
    | ok n =>
      cases n with
      | link t m => exact absurd rfl (hr t m)
      | file c m b =>
        cases r2 with
        | error e => exact .throw e
        | ok x =>
          obtain ⟨z, n⟩ := x
          cases n with
          | file c m b => exact same_copyFile hd
          | dir m b => exact .throw _
          | link t m => exact .throw _
      | dir m b =>
        cases r2 with
        | error e => exact .throw e
        | ok x =>
          obtain ⟨z, n⟩ := x
          cases n with
          | file c m b => exact same_copyFile hd
          | dir m b => exact .throw _
          | link t m => exact .throw _
    | error e =>
      cases r2 with
      | error e => exact .throw e
      | ok x =>
        obtain ⟨z, n⟩ := x
        cases n with
        | file c m b => exact same_copyFile hd
        | dir m b => exact .throw _
        | link t m => exact .throw _

theorem same_copy2 (hs : GoodPath src) (h0 : src ≠ []) (hd : GoodPath dst) :
    Same (copy2 src dst) (Call.copy2 src dst) := by
  refine .bind (.ask (fun _ h => pathIsDir_tame h hd)) (fun b => same_copyTo hs ?_)
  cases b with
  | false => simpa using hd
  | true =>
    simp only [if_true]
    rw [goodPath_append]
    refine ⟨hd, ?_⟩
    intro c hc
    rw [List.mem_singleton] at hc
    subst hc
    have : src.getLastD [] = src.getLast h0 := by
      cases src with
      | nil => exact absurd rfl h0
      | cons a l => simp [List.getLastD]
    rw [this]
    exact hs _ (List.getLast_mem h0)

theorem same_copyEntry (hs : GoodPath src) (h0 : src ≠ []) (hd : GoodPath dst) :
    Same (copyEntry src dst) (FSTools.copyEntry src dst) := by
  refine .tryCatch (same_copy2 hs h0 hd) (fun e => ?_)
  have h1 := Same.bind (same_remove hd) (fun _ => same_copy2 hs h0 hd)
  cases e <;> first
    | exact Or.inl ⟨rfl, rfl⟩
    | exact Or.inr ⟨_, _, rfl, rfl, h1⟩
    | exact Or.inr ⟨_, _, rfl, rfl, same_makedirs hd⟩

theorem same_rmSrc (hp : GoodPath p) : Same (rmSrc p) (FSTools.rmSrc p) :=
  .tryCatch (same_remove hp) (fun _ => Or.inr ⟨_, _, rfl, rfl, same_rmdir hp⟩)

theorem same_transferOne {source dest : Path} {rm : Bool} (hs : GoodPath source) (h0 : source ≠ []) (hd : GoodPath dest)
    (hp : GoodPath p) : Same (transferOne source dest rm p) (FSTools.transferOne source dest rm p) := by
  have h1 : GoodPath (source ++ p) := goodPath_append.2 ⟨hs, hp⟩
  have h2 : GoodPath (dest ++ p) := goodPath_append.2 ⟨hd, hp⟩
  refine .bind (same_makedirs (fun c hc => h2 c (List.dropLast_subset _ hc))) (fun _ => ?_)
  exact .bind (same_copyEntry h1 (by simp [h0]) h2) (fun _ => .ite (same_rmSrc h1) (.pure ()))

theorem scanTree_tame {fs : FS} (h : Tame fs) (hp : GoodPath p) : scanTree fs p = FSTools.scanTree fs p := by
  unfold scanTree FSTools.scanTree
  rw [stat_tame h hp]
  cases he : fs.stat p with
  | error e => rfl
  | ok x =>
    obtain ⟨q, n⟩ := x
    have hq : q = p := by
      unfold FS.stat at he
      cases hpe : fs.pathErr p with
      | none =>
        rw [FS.follow_nonlink hpe (fun _ _ => h.nolink)] at he
        dsimp only at he
        cases hg : fs.get p with
        | none => rw [hg] at he; cases he
        | some n => rw [hg] at he; cases he; rfl
      | some e => rw [FS.follow] at he; simp [hpe] at he
    subst hq
    cases n <;> simp

theorem scanTree_good {fs : FS} (h : Tame fs) {es : List Path} (hs : FSTools.scanTree fs p = .ok es) :
    ∀ e ∈ es, GoodPath e := by
  unfold FSTools.scanTree at hs
  split at hs
  · cases hs
  · split at hs
    · cases hs
      intro e he
      obtain ⟨⟨q, n⟩, hq, rfl⟩ := List.mem_map.1 he
      have := (h _ (FS.mem_below.1 hq).1).2
      exact (goodPath_append.1 this).2
    · cases hs
  · cases hs

theorem mem_setAdd_map {f g : Path} {es : List Path} : ∀ {acc : List Path},
    g ∈ es.foldl (fun acc e => setAdd (f ++ e) acc) acc → g ∈ acc ∨ ∃ e ∈ es, g = f ++ e := by
  induction es with
  | nil => intro acc h; exact Or.inl h
  | cons e es ih =>
    intro acc h
    rcases ih h with h | ⟨e', h', rfl⟩
    · rcases mem_setAdd.1 h with rfl | h
      · exact Or.inr ⟨e, List.mem_cons_self, rfl⟩
      · exact Or.inl h
    · exact Or.inr ⟨e', List.mem_cons_of_mem _ h', rfl⟩

theorem relPaths_tame {fs : FS} (h : Tame fs) {source : Path} (hs : GoodPath source) (files : List Path) :
    ∀ acc, (∀ f ∈ files, GoodPath f) → (∀ f ∈ acc, GoodPath f) →
      relPaths fs source files acc = FSTools.relPaths fs source files acc ∧
      ∀ ps, FSTools.relPaths fs source files acc = .ok ps → ∀ f ∈ ps, GoodPath f := by
  induction files with
  | nil =>
    intro acc _ ha
    exact ⟨rfl, fun ps hp => by cases hp; exact ha⟩
  | cons f files ih =>
    intro acc hf ha
    have h1 := hf f List.mem_cons_self
    have h2 := fun g hg => hf g (List.mem_cons_of_mem _ hg)
    unfold relPaths FSTools.relPaths
    rw [scanTree_tame h (goodPath_append.2 ⟨hs, h1⟩)]
    cases he : FSTools.scanTree fs (source ++ f) with
    | ok es =>
      dsimp only
      refine ih _ h2 ?_
      intro g hg
      rcases mem_setAdd_map hg with hg | ⟨e, hg', rfl⟩
      · exact ha g hg
      · exact goodPath_append.2 ⟨h1, scanTree_good h he e hg'⟩
    | error e =>
      cases e with
      | notDir =>
        dsimp only
        refine ih _ h2 ?_
        intro g hg
        rcases mem_setAdd.1 hg with rfl | hg
        · exact h1
        · exact ha g hg
      | _ => exact ⟨rfl, fun ps hp => by cases hp⟩

theorem listPaths_tame {fs : FS} (h : Tame fs) {source : Path} (hs : GoodPath source) {files : Option (List Path)}
    (hf : ∀ fl, files = some fl → ∀ f ∈ fl, GoodPath f) :
    listPaths fs source files = FSTools.listPaths fs source files ∧
      ∀ ps, FSTools.listPaths fs source files = .ok ps → ∀ f ∈ ps, GoodPath f := by
  cases files with
  | none => exact ⟨scanTree_tame h hs, fun ps hp => scanTree_good h hp⟩
  | some fl => exact relPaths_tame h hs fl [] (hf fl rfl) (by simp)

theorem same_transferTree {source dest : Path} {files : Option (List Path)} {exclude : List Path} {rm : Bool}
    (hs : GoodPath source) (h0 : source ≠ []) (hd : GoodPath dest)
    (hf : ∀ fl, files = some fl → ∀ f ∈ fl, GoodPath f) :
    Same (transferTree source dest files exclude rm) (FSTools.transferTree source dest files exclude rm) := by
  refine .bind (.ask (fun _ h => pathExists_tame h hs)) (fun b => .ite ?_ (.throw _))
  refine .queryBind (P := fun ps => ∀ f ∈ ps, GoodPath f) (fun fs h => listPaths_tame h hs hf) (fun ps hp => ?_)
  refine .each (fun p hq => same_transferOne hs h0 hd (hp p ?_))
  exact (List.mem_filter.1 (mem_descending.1 hq)).1

end Deep

/-- Without links the two ways of resolving a path agree: a transfer does the same with
`Verif.Deep` and with the model that the other properties use. Missing: commands that meet links to
files only. -/
theorem C89_nolinks_partial {source dest : Path} {files : Option (List Path)} {exclude : List Path} {rm : Bool} {s : OS}
    (hs : GoodPath source) (h0 : source ≠ []) (hd : GoodPath dest)
    (hf : ∀ fl, files = some fl → ∀ f ∈ fl, GoodPath f)
    (hl : ∀ e ∈ s.fs, e.2.isLink = false ∧ GoodPath e.1) :
    Deep.transferTree source dest files exclude rm s = FSTools.transferTree source dest files exclude rm s :=
  (Deep.same_transferTree hs h0 hd hf s hl).1

/-- A file system without links. -/
example : ∀ e ∈ (⟨[(["l".toList], .dir 1 8), (["l".toList, "d".toList], .dir 1 8),
      (["l".toList, "d".toList, "x".toList], .file 7 4 1)], 1000, 0, fun n => n + 50⟩ : OS).fs,
    e.2.isLink = false ∧ GoodPath e.1 := by
  decide +kernel

/-! ### A link to a directory in the user's directory -/

/-- The user's directory before `init`: the directory `d` with the file `d/x`, and the link `s` to `d`. -/
def exDirLink : World :=
  { exWorld exEnvE [] [] [] 1000 with
    os := ⟨[(["x".toList], .file 1 1 1), (["l".toList], .dir 1 8), (["l".toList, "d".toList], .dir 1 8),
      (["l".toList, "d".toList, "x".toList], .file 7 4 1), (["l".toList, "s".toList], .link "d".toList 4)], 1000, 0,
      fun n => n + 50⟩ }

/-- The content 7 is in no file. -/
def noSeven (fs : FS) : Bool := fs.all (fun e => match e.2 with | .file c _ _ => c != 7 | _ => true)

theorem noSeven_iff {fs : FS} (h : noSeven fs = true) : ∀ e ∈ fs, ∀ m b, e.2 ≠ .file 7 m b := by
  intro e he m b hc
  have := List.all_eq_true.1 h e he
  rw [hc] at this
  simp at this

/-- `init` has succeeded for `exDirLink`, and a new process starts. -/
def exDirLinked : World := (Deep.init exEnvE false exDirLink).2.restart 1000

/-- The first `sync` after `init` destroys the file of a directory to which a link leads: `init` succeeds, the content
of `d/x` is in the remote directory, the `sync` fails, and then the content is in no file any more. -/
theorem C89_sync_fails :
    (Deep.init exEnvE false exDirLink).1 = .ok () ∧
    exDirLinked.os.fs.get ["r".toList, "d".toList, "x".toList] = some (.file 7 4 1) ∧
    (Deep.sync exEnvE exDirLinked).1 = .error .notFound ∧
    (∀ e ∈ (Deep.sync exEnvE exDirLinked).2.os.fs, ∀ m b, e.2 ≠ .file 7 m b) :=
  ⟨by decide +kernel, by decide +kernel, by decide +kernel, noSeven_iff (by decide +kernel)⟩

/-- `reset` destroys the file as well. -/
theorem C89_reset_fails :
    (Deep.init exEnvE false exDirLink).1 = .ok () ∧
    exDirLinked.os.fs.get ["r".toList, "d".toList, "x".toList] = some (.file 7 4 1) ∧
    (Deep.reset exEnvE false false exDirLinked).1 = .error .notFound ∧
    (∀ e ∈ (Deep.reset exEnvE false false exDirLinked).2.os.fs, ∀ m b, e.2 ≠ .file 7 m b) :=
  ⟨by decide +kernel, by decide +kernel, by decide +kernel, noSeven_iff (by decide +kernel)⟩

/-- The source and the destination of a round of this `sync` lead to the same file, so that `C89_through_fails`
applies. -/
example : Deep.place exDirLinked.os.fs ["r".toList, "s".toList, "x".toList] = .ok ["r".toList, "d".toList, "x".toList] ∧
    Deep.place exDirLinked.os.fs ["l".toList, "s".toList, "x".toList] = .ok ["r".toList, "d".toList, "x".toList] := by
  decide +kernel

example : exDirLinked.os.fs.WF :=
  ⟨by decide +kernel, by decide +kernel, by decide +kernel, by decide +kernel⟩

/-- A link to a directory that is new since `init` is not uploaded as a link: `update_remote` makes a directory with
copies of the files, while `init`, which names no paths, uploads a link. -/
theorem C89_upload_fails :
    (Deep.transferTree exEnvE.loc exEnvE.rem (some [["s".toList]]) [] false exDirLink.os).1 = .ok () ∧
    (Deep.transferTree exEnvE.loc exEnvE.rem (some [["s".toList]]) [] false exDirLink.os).2.fs.get ["r".toList, "s".toList, "x".toList]
      = some (.file 7 4 1) ∧
    (Deep.transferTree exEnvE.loc exEnvE.rem none [] false exDirLink.os).1 = .ok () ∧
    (Deep.transferTree exEnvE.loc exEnvE.rem none [] false exDirLink.os).2.fs.get ["r".toList, "s".toList]
      = some (.link "d".toList 4) := by
  decide +kernel

/-! ### A directory that has been moved elsewhere -/

/-- C89 and C56 in full are false. Removing a local path removes the file outside that it leads to. -/
theorem C89_remove_fails {s : OS} {parent p z : Path} {c : Nat} {m : Int} {b : Nat}
    (wf : s.fs.WF) (hp : Deep.place s.fs (parent ++ p) = .ok z) (hz : s.fs.get z = some (.file c m b)) (hf : s.fuel ≠ 0) :
    (Deep.rmOne parent p s).1 = .ok () ∧ (Deep.rmOne parent p s).2.fs = s.fs.rm z := by
  have hr : s.fs.remove z = .ok (s.fs.rm z) := by
    unfold FS.remove FS.lstat
    rw [wf.pathErr hz, hz]
  have h1 : Deep.remove (parent ++ p) s = (.ok (), { s with fs := s.fs.rm z, fuel := s.fuel - 1, tick := s.tick + 1 }) := by
    unfold Deep.remove OSM.op Deep.at_
    cases hfu : s.fuel with
    | zero => exact absurd hfu hf
    | succ n => dsimp only; rw [hp]; dsimp only; rw [hr]; rfl
  unfold Deep.rmOne Prog.tryCatch
  rw [h1]
  exact ⟨rfl, rfl⟩

/-- The user's directory before `init`. -/
def exPlainDir : World :=
  { exWorld exEnvE [] [] [] 1000 with
    os := ⟨[(["x".toList], .file 1 1 1), (["l".toList], .dir 1 8), (["l".toList, "d".toList], .dir 1 8),
      (["l".toList, "d".toList, "x".toList], .file 4 4 1)], 1000, 0, fun n => n + 50⟩ }

/-- The changes that users make to the files between two commands. -/
def World.edit (w : World) (f : FS → FS) : World := { w with os := { w.os with fs := f w.os.fs } }

/-- After `init` and a `sync` the user moves `d` to `o` and leaves the link `d` to `o`; then they change `x`. The
remote `d/x` is deleted. -/
def exMovedDeleted : World :=
  ((Deep.sync exEnvE ((Deep.init exEnvE false exPlainDir).2.restart 1000)).2.restart 1000).edit (fun fs =>
    (["l".toList, "d".toList], .link "/o".toList 100) :: (["o".toList], .dir 1 8) ::
      (["o".toList, "x".toList], .file 7 101 1) :: (fs.rmTree ["l".toList, "d".toList]).rm ["r".toList, "d".toList, "x".toList])

/-- The next `sync` deletes the file `o/x`, which is in neither of the two directories, and succeeds. The content is in
no file any more. -/
theorem C89_outside_fails :
    (Deep.init exEnvE false exPlainDir).1 = .ok () ∧
    (Deep.sync exEnvE ((Deep.init exEnvE false exPlainDir).2.restart 1000)).1 = .ok () ∧
    exMovedDeleted.os.fs.get ["o".toList, "x".toList] = some (.file 7 101 1) ∧
    (Deep.sync exEnvE exMovedDeleted).1 = .ok () ∧
    (Deep.sync exEnvE exMovedDeleted).2.os.fs.get ["o".toList, "x".toList] = none ∧
    (∀ e ∈ (Deep.sync exEnvE exMovedDeleted).2.os.fs, ∀ m b, e.2 ≠ .file 7 m b) :=
  ⟨by decide +kernel, by decide +kernel, by decide +kernel, by decide +kernel, by decide +kernel,
   noSeven_iff (by decide +kernel)⟩

/-- `C89_remove_fails` applies to it. -/
example : exMovedDeleted.os.fs.WF ∧
    Deep.place exMovedDeleted.os.fs (exEnvE.loc ++ ["d".toList, "x".toList]) = .ok ["o".toList, "x".toList] :=
  ⟨⟨by decide +kernel, by decide +kernel, by decide +kernel, by decide +kernel⟩, by decide +kernel⟩

/-- The same, but another client has made a file `d/y`, and there is another file `o/y`. -/
def exMovedAdded : World :=
  ((Deep.init exEnvE false exPlainDir).2.restart 1000).edit (fun fs =>
    (["l".toList, "d".toList], .link "/o".toList 100) :: (["o".toList], .dir 1 8) ::
      (["o".toList, "y".toList], .file 7 101 1) :: (["r".toList, "d".toList, "y".toList], .file 5 102 1) ::
      fs.rmTree ["l".toList, "d".toList])

/-- The next `sync` overwrites `o/y` and succeeds. -/
theorem C89_overwrite_fails :
    (Deep.init exEnvE false exPlainDir).1 = .ok () ∧
    exMovedAdded.os.fs.get ["o".toList, "y".toList] = some (.file 7 101 1) ∧
    (Deep.sync exEnvE exMovedAdded).1 = .ok () ∧
    (Deep.sync exEnvE exMovedAdded).2.os.fs.get ["o".toList, "y".toList] = some (.file 5 102 1) ∧
    (∀ e ∈ (Deep.sync exEnvE exMovedAdded).2.os.fs, ∀ m b, e.2 ≠ .file 7 m b) :=
  ⟨by decide +kernel, by decide +kernel, by decide +kernel, by decide +kernel, noSeven_iff (by decide +kernel)⟩

end Verif
