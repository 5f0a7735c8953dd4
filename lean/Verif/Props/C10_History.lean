import Mathlib.Data.List.Induction
import Verif.Props.C10_Batch
import Verif.DBHistory
/-
C10: whole histories of a remote database in which ids collide.
-/
namespace Verif
open ADB

/-- The history of a database that knows the paths themselves and no ids. -/
def idealRun (ops : List ROp) : ARemote := ops.foldl ARemote.step []

/-- What is assumed of a history: parents are added with or before their entries; what is updated or removed is in the
database (these two are about the callers); two new paths of one batch do not have the same hash; and the hash of a path
with a salt that it is given is neither that of another path nor that of another path with one of its salts. Paths of
different batches may have the same hash. -/
structure Separated (h : Str → Int) (ops : List ROp) : Prop where
  parents : ∀ l b t f r, ops = l ++ .add b t f :: r → DB.ParentsKnown (paths (idealRun l)) (b.map Prod.fst)
  known : ∀ l op r, ops = l ++ op :: r → op.isAdd = false → ∀ p ∈ op.paths, p ∈ paths (idealRun l)
  batch : ∀ l b t f r, ops = l ++ .add b t f :: r → ∀ p ∈ b.map Prod.fst, ∀ q ∈ b.map Prod.fst,
    p ∉ paths (idealRun l) → q ∉ paths (idealRun l) → p ≠ q → h (toStr p) ≠ h (toStr q)
  salts : ∀ op ∈ ops, ∀ op' ∈ ops, ∀ p ∈ op.paths, ∀ q ∈ op'.paths, p ≠ q → ∀ b t f, .add b t f ∈ ops →
    h (toStr p ++ f p) ≠ h (toStr q) ∧ ∀ b' t' g, .add b' t' g ∈ ops → h (toStr p ++ f p) ≠ h (toStr q ++ g q)

theorem Separated.before {h : Str → Int} {ops : List ROp} {op : ROp} (s : Separated h (ops ++ [op])) :
    Separated h ops where
  parents l b t f r e := s.parents l b t f (r ++ [op]) (by rw [e]; simp)
  known l o r e := s.known l o (r ++ [op]) (by rw [e]; simp)
  batch l b t f r e := s.batch l b t f (r ++ [op]) (by rw [e]; simp)
  salts o ho o' ho' p hp q hq hne b t f hf :=
    have h1 := s.salts o (List.mem_append_left _ ho) o' (List.mem_append_left _ ho') p hp q hq hne b t f
      (List.mem_append_left _ hf)
    ⟨h1.1, fun b' t' g hg => h1.2 b' t' g (List.mem_append_left _ hg)⟩

/-- What the calls keep true. -/
structure KeptApart (h : Str → Int) (ops : List ROp) (db : RemoteDB) : Prop where
  wf : db.WF h
  abs : db.abs = idealRun ops
  coll : ∀ e ∈ db.coll, ∃ b t f, ROp.add b t f ∈ ops ∧ e.2 = f e.1
  added : ∀ p ∈ paths db.abs, ∃ op ∈ ops, p ∈ op.paths

theorem idealRun_snoc (ops : List ROp) (op : ROp) : idealRun (ops ++ [op]) = ARemote.step (idealRun ops) op := by
  unfold idealRun
  rw [List.foldl_append]
  rfl

theorem remoteRun_snoc (h : Str → Int) (db : RemoteDB) (ops : List ROp) (op : ROp) :
    RemoteDB.run h db (ops ++ [op]) = RemoteDB.step h (RemoteDB.run h db ops) op := by
  unfold RemoteDB.run
  rw [List.foldl_append]
  rfl

theorem updateOpt_refine {δ α : Type} {h : Str → Int} {db : DB δ} (w : db.WF h) {ps : List Path}
    (hps : ∀ p ∈ ps, db.IdOK h p) (o : Option α) (f : α → Row δ → Row δ) (g : α → Entry δ → Entry δ)
    (hf : ∀ v n, (f v n).id = n.id) (hf2 : ∀ v n, (f v n).path = n.path) (hg : ∀ v n, (f v n).toEntry = g v n.toEntry) :
    DB.SameKeys db (DB.updateOpt h db ps o f) ∧ (DB.updateOpt h db ps o f).abs = ADB.updateOpt db.abs ps o g := by
  cases o with
  | none => exact ⟨DB.SameKeys.refl _, rfl⟩
  | some v => exact DB.updateWhere_refine db ps (f v) (g v) (hf v) (hf2 v) (hg v) w hps

theorem keptApart {h : Str → Int} {ops : List ROp} (s : Separated h ops) :
    KeptApart h ops (RemoteDB.run h DB.empty ops) := by
  induction ops using List.reverseRecOn with
  | nil =>
    exact ⟨(DB.inU_empty h (fun _ => True)).wf, rfl, fun e he => (by cases he), fun p hp => (by cases hp)⟩
  | append_singleton ops op ih =>
    have i := ih s.before
    rw [remoteRun_snoc]
    generalize RemoteDB.run h DB.empty ops = db at i ⊢
    have hadd : ∀ e ∈ db.coll, ∃ b t f, ROp.add b t f ∈ ops ++ [op] ∧ e.2 = f e.1 := fun e he =>
      have ⟨b, t, f, h1, h2⟩ := i.coll e he
      ⟨b, t, f, List.mem_append_left _ h1, h2⟩
    have hmem : ∀ p ∈ paths db.abs, ∃ o ∈ ops ++ [op], p ∈ o.paths := fun p hp =>
      have ⟨o, h1, h2⟩ := i.added p hp
      ⟨o, List.mem_append_left _ h1, h2⟩
    cases op with
    | add b t f =>
      have hpar := s.parents ops b t f [] rfl
      rw [← i.abs] at hpar
      have hb := s.batch ops b t f [] rfl
      rw [← i.abs] at hb
      have hlast : ROp.add b t f ∈ ops ++ [ROp.add b t f] := by simp
      -- a salt that a path may get belongs to one of the calls
      have hsalt : ∀ p v, MayHaveSalt f db.coll p v → v = [] ∨
          ∃ b' t' g, ROp.add b' t' g ∈ ops ++ [ROp.add b t f] ∧ v = g p := by
        rintro p v (h1 | h1 | h1)
        · exact Or.inl h1
        · exact Or.inr ⟨b, t, f, hlast, h1⟩
        · exact Or.inr (hadd _ h1)
      have apart : ∀ p q, (∃ o ∈ ops ++ [ROp.add b t f], p ∈ o.paths) → (∃ o ∈ ops ++ [ROp.add b t f], q ∈ o.paths) →
          p ≠ q → ∀ v u, (∃ b' t' g, ROp.add b' t' g ∈ ops ++ [ROp.add b t f] ∧ v = g p) →
          (u = [] ∨ ∃ b' t' g, ROp.add b' t' g ∈ ops ++ [ROp.add b t f] ∧ u = g q) →
          h (toStr p ++ v) ≠ h (toStr q ++ u) := by
        rintro p q ⟨o, ho, hp⟩ ⟨o', ho', hq⟩ hne v u ⟨b', t', g, hg, rfl⟩ hu
        have h1 := s.salts o ho o' ho' p hp q hq hne b' t' g hg
        rcases hu with rfl | ⟨b2, t2, g2, hg2, rfl⟩
        · rw [List.append_nil]
          exact h1.1
        · exact h1.2 b2 t2 g2 hg2
      have hin : ∀ p ∈ b.map Prod.fst, ∃ o ∈ ops ++ [ROp.add b t f], p ∈ o.paths := fun p hp => ⟨_, hlast, hp⟩
      obtain ⟨_, _, h3, h4, h5⟩ := C10_batch_partial (salt := f) (data := t) i.wf hpar
        (by
          intro p hp q hq hpn hqn hne v u hv hu
          rcases hsalt p v hv with rfl | hv'
          · rcases hsalt q u hu with rfl | hu'
            · rw [List.append_nil, List.append_nil]
              exact hb p hp q hq hpn hqn hne
            · exact (apart q p (hin q hq) (hin p hp) (Ne.symm hne) u [] hu' (Or.inl rfl)).symm
          · exact apart p q (hin p hp) (hin q hq) hne v u hv' (hsalt q u hu))
        (by
          intro p hp hpn v hv n hn hid
          have hv' : ∃ b' t' g, ROp.add b' t' g ∈ ops ++ [ROp.add b t f] ∧ v = g p := by
            rcases hv with h1 | h1
            · exact ⟨b, t, f, hlast, h1⟩
            · exact hadd _ h1
          have hnp : n.path ∈ paths db.abs := by
            simp only [paths, DB.abs, List.map_map, List.mem_map]
            exact ⟨n, hn, rfl⟩
          have hne : p ≠ n.path := fun e => hpn (e ▸ hnp)
          have hnid : n.id = DB.getPathId h db.coll n.path := i.wf.idEq _ (DB.mem_keys hn)
          rcases getPathId_form h db.coll n.path with ⟨e, _⟩ | ⟨u, hu, e⟩
          · refine apart p n.path (hin p hp) (hmem _ hnp) hne v [] hv' (Or.inl rfl) ?_
            rw [List.append_nil, ← e, ← hnid, hid]
          · refine apart p n.path (hin p hp) (hmem _ hnp) hne v u hv' (Or.inr (hadd _ hu)) ?_
            rw [← e, ← hnid, hid])
      refine ⟨h3, ?_, ?_, ?_⟩
      · rw [idealRun_snoc, ← i.abs]
        exact h4
      · intro e he
        rcases h5 e he with h | h
        · exact hadd e h
        · exact ⟨b, t, f, hlast, h⟩
      · intro p hp
        have hp : p ∈ paths (addCore db.abs b t) := by rw [← h4]; exact hp
        rcases mem_paths_addCore.1 hp with h | h
        · exact hmem p h
        · exact hin p h
    | rm ps =>
      have hk := s.known ops (.rm ps) [] rfl rfl
      rw [← i.abs] at hk
      obtain ⟨h1, h2, _, h4⟩ := DB.rmCore_refine i.wf (ps := ps)
        (fun p hp => ⟨i.wf.idOK (hk p hp), by
          have := hk p hp
          simp only [paths, DB.abs, List.map_map, List.mem_map] at this
          obtain ⟨n, hn, rfl⟩ := this
          exact i.wf.ne _ (DB.mem_keys hn)⟩)
      refine ⟨h1, ?_, fun e he => hadd e (h4 e he), ?_⟩
      · rw [idealRun_snoc, ← i.abs]
        exact h2
      · intro p hp
        have hp : p ∈ paths (ADB.rmCore db.abs ps) := by rw [← h2]; exact hp
        apply hmem
        simp only [ADB.paths, ADB.rmCore, List.mem_map, List.mem_filter] at hp ⊢
        obtain ⟨e, he, he2⟩ := hp
        exact ⟨e, he.1, he2⟩
    | update ps d t =>
      have hk := s.known ops (.update ps d t) [] rfl rfl
      rw [← i.abs] at hk
      have hok : ∀ p ∈ ps, db.IdOK h p := fun p hp => i.wf.idOK (hk p hp)
      obtain ⟨s1, e1⟩ := updateOpt_refine i.wf hok d (fun d n => { n with directory := d })
        (fun d e => { e with directory := d }) (fun _ _ => rfl) (fun _ _ => rfl) (fun _ _ => rfl)
      obtain ⟨s2, e2⟩ := updateOpt_refine (s1.wf i.wf) (fun p hp => s1.idOK (hok p hp)) t (fun t n => { n with data := t })
        (fun t e => { e with data := t }) (fun _ _ => rfl) (fun _ _ => rfl) (fun _ _ => rfl)
      have s3 := s1.trans s2
      rw [e1] at e2
      refine ⟨s3.wf i.wf, ?_, fun e he => hadd e (by rw [← s3.coll]; exact he), ?_⟩
      · rw [idealRun_snoc, ← i.abs]
        exact e2
      · intro p hp
        apply hmem
        rw [DB.paths_abs] at hp ⊢
        rw [← s3.keys]
        exact hp

/-- Missing for the full claim: see `C10_batch_partial`. What holds, for all histories of calls on a remote database, with
any number of paths that have the same hash: the entries are those of a database that knows no ids, and every path that
is in it is found with its own data. -/
theorem C10_history_partial {h : Str → Int} {ops : List ROp} (s : Separated h ops) :
    (RemoteDB.run h DB.empty ops).abs = idealRun ops ∧
    ∀ p ∈ paths (idealRun ops), DB.getPathInfo h (RemoteDB.run h DB.empty ops) p
      = (info (idealRun ops) p).map (fun e => (e.directory, e.data)) := by
  have k := keptApart s
  refine ⟨k.abs, fun p hp => ?_⟩
  rw [← k.abs] at hp ⊢
  exact DB.getPathInfo_refine k.wf (k.wf.idOK hp)

/-! ### Two paths with the same hash in different batches -/

/-- `a` and `b` have the same hash, but not with their salts. -/
def exHash10 (s : Str) : Int := if s = ['a'] ∨ s = ['b'] then 0 else if s = ['a', 's'] then 1 else if s = ['b', 's'] then 2 else 3

def exCollide : List ROp := [.add [([['a']], false)] 1 (fun _ => ['s']), .add [([['b']], true)] 2 (fun _ => ['s']),
  .rm [[['a']]], .update [[['b']]] none (some 5)]

theorem exCollide_separated : Separated exHash10 exCollide where
  parents l b t f r e := by
    rcases l with _ | ⟨x, _ | ⟨y, _ | ⟨z, _ | ⟨u, l⟩⟩⟩⟩ <;> simp [exCollide] at e
    · obtain ⟨⟨rfl, _⟩, _⟩ := e
      intro p hp
      simp at hp
      subst hp
      exact ⟨by decide, fun h => absurd rfl h⟩
    · obtain ⟨_, ⟨rfl, _⟩, _⟩ := e
      intro p hp
      simp at hp
      subst hp
      exact ⟨by decide, fun h => absurd rfl h⟩
  known l op r e ha := by
    rcases l with _ | ⟨x, _ | ⟨y, _ | ⟨z, _ | ⟨u, l⟩⟩⟩⟩ <;> simp [exCollide] at e
    · rw [← e.1] at ha; cases ha
    · rw [← e.2.1] at ha; cases ha
    · obtain ⟨rfl, rfl, rfl, _⟩ := e
      intro p hp
      rw [show p = [['a']] by simpa [ROp.paths] using hp]
      decide +kernel
    · obtain ⟨rfl, rfl, rfl, rfl, _⟩ := e
      intro p hp
      rw [show p = [['b']] by simpa [ROp.paths] using hp]
      decide +kernel
  batch l b t f r e p hp q hq _ _ hne := by
    rcases l with _ | ⟨x, _ | ⟨y, _ | ⟨z, _ | ⟨u, l⟩⟩⟩⟩ <;> simp [exCollide] at e
    · obtain ⟨⟨rfl, _⟩, _⟩ := e
      simp at hp hq
      exact absurd (hp.trans hq.symm) hne
    · obtain ⟨_, ⟨rfl, _⟩, _⟩ := e
      simp at hp hq
      exact absurd (hp.trans hq.symm) hne
  salts op ho op' ho' p hp q hq hne b t f hf := by
    have hsub : ∀ o ∈ exCollide, ∀ x ∈ o.paths, x = [['a']] ∨ x = [['b']] := by
      intro o ho x hx
      simp only [exCollide, List.mem_cons, List.not_mem_nil, or_false] at ho
      rcases ho with rfl | rfl | rfl | rfl <;> simp [ROp.paths] at hx <;> simp [hx]
    have hsalt : ∀ b t f, ROp.add b t f ∈ exCollide → ∀ x, f x = ['s'] := by
      intro b t f h x
      simp [exCollide] at h
      rcases h with ⟨_, _, rfl⟩ | ⟨_, _, rfl⟩ <;> rfl
    rw [hsalt b t f hf]
    refine ⟨?_, fun b' t' g hg => ?_⟩
    · rcases hsub op ho p hp with rfl | rfl <;> rcases hsub op' ho' q hq with rfl | rfl <;>
        first | exact absurd rfl hne | decide +kernel
    · rw [hsalt b' t' g hg]
      rcases hsub op ho p hp with rfl | rfl <;> rcases hsub op' ho' q hq with rfl | rfl <;>
        first | exact absurd rfl hne | decide +kernel

/-- While both are stored the second one has a salt; it is still found when the first one has been removed. -/
example : DB.getPathInfo exHash10 (RemoteDB.run exHash10 DB.empty exCollide) [['b']] = some (true, 5) ∧
    (RemoteDB.run exHash10 DB.empty exCollide).coll = [([['b']], ['s'])] :=
  ⟨((C10_history_partial exCollide_separated).2 [['b']] (by decide +kernel)).trans (by decide +kernel), by decide +kernel⟩

end Verif
