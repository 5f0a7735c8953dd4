import Mathlib.Data.List.Induction
import Verif.Props.C10_History
import Verif.DBHistInv
/-
C10: whole histories of a profile's database in which ids collide. Unlike the remote database it updates the directories
above the paths that are added, changed or removed, and finds these by their ids too.
-/
namespace Verif
open ADB

/-- The history of a database that knows the paths themselves and no ids. -/
def idealLocal (ops : List LOp) : Option ALocal := ops.foldlM ALocal.step []

/-- `f` are the salts that a call may give to its paths. -/
def LOp.GivesSalt : LOp → (Path → Str) → Prop
  | .add _ _ _ f, g => f = g
  | .addInflated _ f, g => f = g
  | _, _ => False

/-- What is assumed of the callers and of the hashes, as in `Separated`. -/
structure SeparatedL (h : Str → Int) (ops : List LOp) : Prop where
  parents : ∀ l op r a, ops = l ++ op :: r → op.isAdd = true → idealLocal l = some a → DB.ParentsKnown (paths a) op.paths
  known : ∀ l op r a, ops = l ++ op :: r → op.isAdd = false → idealLocal l = some a → ∀ p ∈ op.paths, p ∈ paths a
  batch : ∀ l op r a, ops = l ++ op :: r → op.isAdd = true → idealLocal l = some a → ∀ p ∈ op.paths, ∀ q ∈ op.paths,
    p ∉ paths a → q ∉ paths a → p ≠ q → h (toStr p) ≠ h (toStr q)
  salts : ∀ op ∈ ops, ∀ op' ∈ ops, ∀ p ∈ op.paths, ∀ q ∈ op'.paths, p ≠ q → ∀ o ∈ ops, ∀ f, o.GivesSalt f →
    h (toStr p ++ f p) ≠ h (toStr q) ∧ ∀ o' ∈ ops, ∀ g, o'.GivesSalt g → h (toStr p ++ f p) ≠ h (toStr q ++ g q)

/-- No directory that is removed together with something in it has the hash of another path. -/
def RemovedApart (h : Str → Int) (ops : List LOp) : Prop :=
  ∀ ps, LOp.rm ps ∈ ops → ∀ p ∈ ps, ∀ d ∈ ps, d <+: p → d ≠ p → ∀ d', d <+: d' → d' <+: p → d' ≠ p →
    ∀ op ∈ ops, ∀ q ∈ op.paths, q ≠ d' → h (toStr d') ≠ h (toStr q)

theorem SeparatedL.before {h : Str → Int} {ops : List LOp} {op : LOp} (s : SeparatedL h (ops ++ [op])) :
    SeparatedL h ops where
  parents l o r a e := s.parents l o (r ++ [op]) a (by rw [e]; simp)
  known l o r a e := s.known l o (r ++ [op]) a (by rw [e]; simp)
  batch l o r a e := s.batch l o (r ++ [op]) a (by rw [e]; simp)
  salts o ho o' ho' p hp q hq hne o2 ho2 f hf :=
    have h1 := s.salts o (List.mem_append_left _ ho) o' (List.mem_append_left _ ho') p hp q hq hne o2
      (List.mem_append_left _ ho2) f hf
    ⟨h1.1, fun o3 ho3 g hg => h1.2 o3 (List.mem_append_left _ ho3) g hg⟩

theorem RemovedApart.before {h : Str → Int} {ops : List LOp} {op : LOp} (s : RemovedApart h (ops ++ [op])) :
    RemovedApart h ops := fun ps hps p hp d hd h1 h2 d' h3 h4 h5 o ho q hq hne =>
  s ps (List.mem_append_left _ hps) p hp d hd h1 h2 d' h3 h4 h5 o (List.mem_append_left _ ho) q hq hne

/-- What the calls keep true. -/
structure KeptApartL (h : Str → Int) (ops : List LOp) (db : LocalDB) : Prop where
  wf : db.WF h
  abs : some db.abs = idealLocal ops
  coll : ∀ e ∈ db.coll, ∃ o ∈ ops, ∃ f, o.GivesSalt f ∧ e.2 = f e.1
  added : ∀ p ∈ paths db.abs, ∃ op ∈ ops, p ∈ op.paths

theorem idealLocal_snoc (ops : List LOp) (op : LOp) :
    idealLocal (ops ++ [op]) = (idealLocal ops).bind (fun a => ALocal.step a op) := by
  unfold idealLocal
  rw [List.foldlM_append]
  cases List.foldlM ALocal.step [] ops with
  | none => rfl
  | some a => show List.foldlM ALocal.step a [op] = ALocal.step a op; simp

theorem localRun_snoc (h : Str → Int) (db : LocalDB) (ops : List LOp) (op : LOp) :
    LocalDB.run h db (ops ++ [op]) = (LocalDB.run h db ops).bind (fun d => LocalDB.step h d op) := by
  unfold LocalDB.run
  rw [List.foldlM_append]
  cases List.foldlM (LocalDB.step h) db ops with
  | none => rfl
  | some a => show List.foldlM (LocalDB.step h) a [op] = LocalDB.step h a op; simp

theorem refresh_same {h : Str → Int} {db : LocalDB} (w : db.WF h) {ps : List Path}
    (hok : ∀ p ∈ pathAncestry ps, db.IdOK h p) :
    DB.SameKeys db (LocalDB.updateLocal h (LocalDB.updatePriority h db ps) ps) ∧
      (LocalDB.updateLocal h (LocalDB.updatePriority h db ps) ps).abs = ALocal.refresh db.abs ps := by
  obtain ⟨s1, e1⟩ := DB.updateAgg_refine aggPriority db ps w hok
  obtain ⟨s2, e2⟩ := DB.updateAgg_refine aggLocal (DB.updateAgg h aggPriority db ps) ps (s1.wf w)
    (fun p hp => s1.idOK (hok p hp))
  refine ⟨s1.trans s2, ?_⟩
  rw [e1] at e2
  exact e2

/-- The directories above paths. -/
theorem mem_above {ps : List Path} {d : Path} (h : d ∈ pathAncestry (DB.parentsOf ps)) :
    d ≠ [] ∧ ∃ p ∈ ps, d <+: p ∧ d ≠ p := by
  obtain ⟨q, hq, h1⟩ := mem_pathAncestry.1 h
  obtain ⟨h0, p, hp, rfl⟩ := DB.mem_parentsOf.1 hq
  have hlen : p.dropLast.length < p.length := by
    have : p ≠ [] := by rintro rfl; exact h0 rfl
    have := List.length_pos_iff.2 this
    rw [List.length_dropLast]
    omega
  rcases h1 with rfl | ⟨h1, h2⟩
  · exact ⟨h0, p, hp, List.dropLast_prefix p, fun e => by rw [e] at hlen; exact Nat.lt_irrefl _ hlen⟩
  · refine ⟨h1, p, hp, h2.trans (List.dropLast_prefix p), fun e => ?_⟩
    have := h2.length_le
    rw [e] at this
    omega

theorem known_above {δ : Type} {h : Str → Int} {db : DB δ} (w : db.WF h) {p d : Path} (hp : p ∈ paths db.abs) (h0 : d ≠ [])
    (h1 : d <+: p) : d ∈ paths db.abs := by
  rw [DB.paths_abs] at hp ⊢
  obtain ⟨k, hk, rfl⟩ := List.mem_map.1 hp
  exact WFk.anc w hk h0 h1

theorem ancestry_known {δ : Type} {h : Str → Int} {db : DB δ} (w : db.WF h) {ps : List Path}
    (hps : ∀ p ∈ ps, p ∈ paths db.abs) : ∀ d ∈ pathAncestry (DB.parentsOf ps), db.IdOK h d := by
  intro d hd
  obtain ⟨h0, p, hp, h1, _⟩ := mem_above hd
  exact w.idOK (known_above w (hps p hp) h0 h1)

theorem keptApart_add {h : Str → Int} {ops : List LOp} {op : LOp} (s : SeparatedL h (ops ++ [op])) {db : LocalDB}
    (i : KeptApartL h ops db) {b : List (Path × Bool)} {f : Path → Str} (ha : op.isAdd = true)
    (hb : op.paths = b.map Prod.fst) (hf : op.GivesSalt f) (x : Rat) (lo : Bool) :
    (LocalDB.addPaths h f db b x lo).WF h ∧ (LocalDB.addPaths h f db b x lo).abs = ALocal.addPaths db.abs b x lo ∧
    (∀ e ∈ (LocalDB.addPaths h f db b x lo).coll, ∃ o ∈ ops ++ [op], ∃ f, o.GivesSalt f ∧ e.2 = f e.1) ∧
    ∀ p ∈ paths (LocalDB.addPaths h f db b x lo).abs, ∃ o ∈ ops ++ [op], p ∈ o.paths := by
  have hadd : ∀ e ∈ db.coll, ∃ o ∈ ops ++ [op], ∃ f, o.GivesSalt f ∧ e.2 = f e.1 := fun e he =>
    have ⟨o, h1, h2⟩ := i.coll e he
    ⟨o, List.mem_append_left _ h1, h2⟩
  have hmem : ∀ p ∈ paths db.abs, ∃ o ∈ ops ++ [op], p ∈ o.paths := fun p hp =>
    have ⟨o, h1, h2⟩ := i.added p hp
    ⟨o, List.mem_append_left _ h1, h2⟩
  have hpar := s.parents ops op [] db.abs rfl ha i.abs.symm
  have hbat := s.batch ops op [] db.abs rfl ha i.abs.symm
  rw [hb] at hpar hbat
  have hlast : op ∈ ops ++ [op] := by simp
  have hin : ∀ p ∈ b.map Prod.fst, ∃ o ∈ ops ++ [op], p ∈ o.paths := fun p hp => ⟨_, hlast, by rw [hb]; exact hp⟩
  have hsalt : ∀ p v, MayHaveSalt f db.coll p v → v = [] ∨ ∃ o ∈ ops ++ [op], ∃ g, o.GivesSalt g ∧ v = g p := by
    rintro p v (h1 | h1 | h1)
    · exact Or.inl h1
    · exact Or.inr ⟨op, hlast, f, hf, h1⟩
    · exact Or.inr (hadd _ h1)
  have apart : ∀ p q, (∃ o ∈ ops ++ [op], p ∈ o.paths) → (∃ o ∈ ops ++ [op], q ∈ o.paths) →
      p ≠ q → ∀ v u, (∃ o ∈ ops ++ [op], ∃ g, o.GivesSalt g ∧ v = g p) →
      (u = [] ∨ ∃ o ∈ ops ++ [op], ∃ g, o.GivesSalt g ∧ u = g q) → h (toStr p ++ v) ≠ h (toStr q ++ u) := by
    rintro p q ⟨o, ho, hp⟩ ⟨o', ho', hq⟩ hne v u ⟨o1, ho1, g, hg, rfl⟩ hu
    have h1 := s.salts o ho o' ho' p hp q hq hne o1 ho1 g hg
    rcases hu with rfl | ⟨o2, ho2, g2, hg2, rfl⟩
    · rw [List.append_nil]
      exact h1.1
    · exact h1.2 o2 ho2 g2 hg2
  obtain ⟨_, _, h3, h4, h5⟩ := C10_batch_partial (salt := f) (data := (⟨x, lo⟩ : PData)) i.wf hpar
    (by
      intro p hp q hq hpn hqn hne v u hv hu
      rcases hsalt p v hv with rfl | hv'
      · rcases hsalt q u hu with rfl | hu'
        · rw [List.append_nil, List.append_nil]
          exact hbat p hp q hq hpn hqn hne
        · exact (apart q p (hin q hq) (hin p hp) (Ne.symm hne) u [] hu' (Or.inl rfl)).symm
      · exact apart p q (hin p hp) (hin q hq) hne v u hv' (hsalt q u hu))
    (by
      intro p hp hpn v hv n hn hid
      have hv' : ∃ o ∈ ops ++ [op], ∃ g, o.GivesSalt g ∧ v = g p := by
        rcases hv with h1 | h1
        · exact ⟨op, hlast, f, hf, h1⟩
        · exact hadd _ h1
      have hnp : n.path ∈ paths db.abs := by
        simp only [paths, DB.abs, List.map_map, List.mem_map]
        exact ⟨n, hn, rfl⟩
      have hne : p ≠ n.path := fun e => hpn (e ▸ hnp)
      have hnid : n.id = DB.getPathId h db.coll n.path := i.wf.idEq _ (DB.mem_keys hn)
      rcases getPathId_form h db.coll n.path with ⟨e, _⟩ | ⟨u, hu, e⟩
      · refine apart p n.path (hin p hp) (hmem _ hnp) hne v [] hv' (Or.inl rfl) ?_
        rw [List.append_nil, ← e, ← hnid, hid]
      · refine apart p n.path (hin p hp) (hmem _ hnp) hne v u hv' (Or.inr (hadd _ hu)) ?_
        rw [← e, ← hnid, hid])
  have hk : ∀ p ∈ (DB.sortDepth Prod.fst b).map Prod.fst, p ∈ paths (DB.addCore h f db b (⟨x, lo⟩ : PData)).abs := by
    intro p hp
    rw [h4]
    exact mem_paths_addCore.2 (Or.inr (by simpa [DB.sortDepth] using hp))
  obtain ⟨s1, e1⟩ := refresh_same h3 (ancestry_known h3 hk)
  rw [h4] at e1
  refine ⟨s1.wf h3, e1, ?_, ?_⟩
  · intro e he
    rcases h5 e (by rw [← s1.coll]; exact he) with h | h
    · exact hadd e h
    · exact ⟨op, hlast, f, hf, h⟩
  · intro p hp
    have hp : p ∈ paths (addCore db.abs b (⟨x, lo⟩ : PData)) := by
      rw [← h4, DB.paths_abs, ← s1.keys, ← DB.paths_abs]
      exact hp
    rcases mem_paths_addCore.1 hp with h | h
    · exact hmem p h
    · exact hin p h

theorem keptApart_same {h : Str → Int} {ops : List LOp} {op : LOp} {db db' : LocalDB} (i : KeptApartL h ops db)
    (s : DB.SameKeys db db') (e : some db'.abs = idealLocal (ops ++ [op])) : KeptApartL h (ops ++ [op]) db' where
  wf := s.wf i.wf
  abs := e
  coll x hx :=
    have ⟨o, h1, h2⟩ := i.coll x (by rw [← s.coll]; exact hx)
    ⟨o, List.mem_append_left _ h1, h2⟩
  added p hp :=
    have ⟨o, h1, h2⟩ := i.added p (by rw [DB.paths_abs, ← s.keys, ← DB.paths_abs]; exact hp)
    ⟨o, List.mem_append_left _ h1, h2⟩

theorem keptApartL_step {h : Str → Int} {ops : List LOp} {op : LOp} (s : SeparatedL h (ops ++ [op]))
    (hr : RemovedApart h (ops ++ [op])) {db : LocalDB} (i : KeptApartL h ops db) :
    (LocalDB.step h db op).map DB.abs = ALocal.step db.abs op ∧
    ∀ db', LocalDB.step h db op = some db' → KeptApartL h (ops ++ [op]) db' := by
  have hid : ∀ a, ALocal.step db.abs op = some a → some a = idealLocal (ops ++ [op]) := fun a ha => by
    rw [idealLocal_snoc, ← i.abs]
    exact ha.symm
  cases op with
  | add b x l f =>
    obtain ⟨h1, h2, h3, h4⟩ := keptApart_add s i rfl rfl (f := f) rfl x l
    refine ⟨congrArg some h2, ?_⟩
    rintro db' ⟨⟩
    exact ⟨h1, by rw [h2]; exact hid _ rfl, h3, h4⟩
  | addInflated b f =>
    have hm := LocalDB.maxPriority_refine db
    have key := fun x => keptApart_add s i rfl rfl (f := f) rfl x true
    simp only [LocalDB.step, LocalDB.addInflated, hm]
    simp only [ALocal.step, ALocal.addInflated] at hid ⊢
    cases hmx : ALocal.maxPriority db.abs with
    | some m =>
      obtain ⟨h1, h2, h3, h4⟩ := key m
      rw [hmx] at hid
      refine ⟨congrArg some h2, ?_⟩
      rintro db' ⟨⟩
      exact ⟨h1, by rw [h2]; exact hid _ rfl, h3, h4⟩
    | none =>
      rw [hmx] at hid
      by_cases hb : b.isEmpty = true
      · obtain ⟨h1, h2, h3, h4⟩ := key 0
        simp only [hb, if_true] at hid ⊢
        refine ⟨congrArg some h2, ?_⟩
        rintro db' ⟨⟩
        exact ⟨h1, by rw [h2]; exact hid _ rfl, h3, h4⟩
      · simp [hb]
  | update ps d x l =>
    have hk := s.known ops (.update ps d x l) [] db.abs rfl rfl i.abs.symm
    have hok : ∀ p ∈ ps, db.IdOK h p := fun p hp => i.wf.idOK (hk p hp)
    obtain ⟨s1, e1⟩ := updateOpt_refine i.wf hok d (fun d n => { n with directory := d })
      (fun d e => { e with directory := d }) (fun _ _ => rfl) (fun _ _ => rfl) (fun _ _ => rfl)
    obtain ⟨s2, e2⟩ := updateOpt_refine (s1.wf i.wf) (fun p hp => s1.idOK (hok p hp)) x
      (fun x n => { n with data := { n.data with priority := x } })
      (fun x e => { e with data := { e.data with priority := x } }) (fun _ _ => rfl) (fun _ _ => rfl) (fun _ _ => rfl)
    have s2' := s1.trans s2
    obtain ⟨s3, e3⟩ := updateOpt_refine (s2'.wf i.wf) (fun p hp => s2'.idOK (hok p hp)) l
      (fun b n => { n with data := { n.data with loc := b } })
      (fun b e => { e with data := { e.data with loc := b } }) (fun _ _ => rfl) (fun _ _ => rfl) (fun _ _ => rfl)
    have s3' := s2'.trans s3
    obtain ⟨s4, e4⟩ := refresh_same (s3'.wf i.wf) (ps := DB.parentsOf ps)
      (fun p hp => s3'.idOK (ancestry_known i.wf hk p hp))
    rw [e3, e2, e1] at e4
    refine ⟨congrArg some e4, ?_⟩
    rintro db' ⟨⟩
    exact keptApart_same i (s3'.trans s4) ((congrArg some e4).trans (hid _ rfl))
  | rm ps =>
    have hk := s.known ops (.rm ps) [] db.abs rfl rfl i.abs.symm
    obtain ⟨h1, h2, _, h4⟩ := DB.rmCore_refine i.wf (ps := ps)
      (fun p hp => ⟨i.wf.idOK (hk p hp), by
        have := hk p hp
        simp only [paths, DB.abs, List.map_map, List.mem_map] at this
        obtain ⟨n, hn, rfl⟩ := this
        exact i.wf.ne _ (DB.mem_keys hn)⟩)
    have hlast : LOp.rm ps ∈ ops ++ [LOp.rm ps] := by simp
    have hcoll : ∀ e ∈ (DB.rmCore h db ps).coll, ∃ o ∈ ops ++ [LOp.rm ps], ∃ f, o.GivesSalt f ∧ e.2 = f e.1 := fun e he =>
      have ⟨o, h1, h2⟩ := i.coll e (h4 e he)
      ⟨o, List.mem_append_left _ h1, h2⟩
    have hmem0 : ∀ p ∈ paths db.abs, ∃ o ∈ ops ++ [LOp.rm ps], p ∈ o.paths := fun p hp =>
      have ⟨o, h1, h2⟩ := i.added p hp
      ⟨o, List.mem_append_left _ h1, h2⟩
    have hsub : ∀ p ∈ paths (DB.rmCore h db ps).abs, p ∈ paths db.abs := by
      intro p hp
      rw [h2] at hp
      simp only [ADB.paths, ADB.rmCore, List.mem_map, List.mem_filter] at hp ⊢
      obtain ⟨e, he, he2⟩ := hp
      exact ⟨e, he.1, he2⟩
    have hok : ∀ d ∈ pathAncestry (DB.parentsOf ps), (DB.rmCore h db ps).IdOK h d := by
      intro d hd
      obtain ⟨h0, p, hp, hdp, hne⟩ := mem_above hd
      by_cases hin : d ∈ paths (DB.rmCore h db ps).abs
      · exact h1.idOK hin
      have hdk := known_above i.wf (hk p hp) h0 hdp
      -- `d` has been removed, because of a path of `ps` above it
      have hgone : ∃ p' ∈ ps, p' <+: d := by
        refine Classical.byContradiction fun hn => hin ?_
        rw [h2]
        simp only [ADB.paths, ADB.rmCore, List.mem_map, List.mem_filter] at hdk ⊢
        obtain ⟨e, he, rfl⟩ := hdk
        refine ⟨e, ⟨he, ?_⟩, rfl⟩
        simp only [not_exists, not_and] at hn
        simpa using hn
      obtain ⟨p', hp', hpd⟩ := hgone
      have hap : ∀ o ∈ ops ++ [LOp.rm ps], ∀ q ∈ o.paths, q ≠ d → h (toStr d) ≠ h (toStr q) :=
        hr ps hlast p hp p' hp' (hpd.trans hdp) (fun e => by
          subst e
          exact hne (hdp.eq_of_length_le hpd.length_le)) d hpd hdp hne
      intro k hkm hkid
      refine Classical.byContradiction fun hne2 => ?_
      have hkp : k.2 ∈ paths (DB.rmCore h db ps).abs := by
        rw [DB.paths_abs]
        exact List.mem_map_of_mem hkm
      obtain ⟨ok, hok1, hok2⟩ := hmem0 _ (hsub _ hkp)
      obtain ⟨od, hod1, hod2⟩ := hmem0 _ hdk
      rw [h1.idEq k hkm] at hkid
      rcases getPathId_form h (DB.rmCore h db ps).coll k.2 with ⟨e, _⟩ | ⟨u, hu, e⟩ <;>
        rcases getPathId_form h (DB.rmCore h db ps).coll d with ⟨e', _⟩ | ⟨v, hv, e'⟩ <;> rw [e, e'] at hkid
      · exact hap ok hok1 k.2 hok2 hne2 hkid.symm
      · obtain ⟨o, ho, g, hg, e2⟩ := hcoll _ hv
        rw [show v = g d from e2] at hkid
        exact (s.salts od hod1 ok hok1 d hod2 k.2 hok2 (Ne.symm hne2) o ho g hg).1 hkid.symm
      · obtain ⟨o, ho, g, hg, e2⟩ := hcoll _ hu
        rw [show u = g k.2 from e2] at hkid
        exact (s.salts ok hok1 od hod1 k.2 hok2 d hod2 hne2 o ho g hg).1 hkid
      · obtain ⟨o, ho, g, hg, e2⟩ := hcoll _ hu
        obtain ⟨o2, ho2, g2, hg2, e3⟩ := hcoll _ hv
        rw [show u = g k.2 from e2, show v = g2 d from e3] at hkid
        exact (s.salts ok hok1 od hod1 k.2 hok2 d hod2 hne2 o ho g hg).2 o2 ho2 g2 hg2 hkid
    obtain ⟨s1, e1⟩ := refresh_same h1 hok
    rw [h2] at e1
    refine ⟨congrArg some e1, ?_⟩
    rintro db' ⟨⟩
    refine ⟨s1.wf h1, (congrArg some e1).trans (hid _ rfl), fun e he => hcoll e (by rw [← s1.coll]; exact he), ?_⟩
    intro p hp
    exact hmem0 p (hsub p (by rw [DB.paths_abs, ← s1.keys, ← DB.paths_abs]; exact hp))
  | increment ps x =>
    have hk := s.known ops (.increment ps x) [] db.abs rfl rfl i.abs.symm
    obtain ⟨s1, e1⟩ := DB.updateWhere_refine db ps
      (fun n => { n with data := { n.data with priority := n.data.priority + x } })
      (fun n => { n with data := { n.data with priority := n.data.priority + x } })
      (fun _ => rfl) (fun _ => rfl) (fun _ => rfl) i.wf (fun p hp => i.wf.idOK (hk p hp))
    obtain ⟨s2, e2⟩ := DB.updateAgg_refine aggPriority _ (DB.parentsOf ps) (s1.wf i.wf)
      (fun p hp => s1.idOK (ancestry_known i.wf hk p hp))
    rw [e1] at e2
    refine ⟨congrArg some e2, ?_⟩
    rintro db' ⟨⟩
    exact keptApart_same i (s1.trans s2) ((congrArg some e2).trans (hid _ rfl))
  | adjust c =>
    have s1 : DB.SameKeys db (LocalDB.adjustAll db c) :=
      DB.sameKeys_mapNodes db (fun n => { n with data := { n.data with priority := n.data.priority * c } })
        (fun _ => rfl) (fun _ => rfl)
    have e1 : (LocalDB.adjustAll db c).abs = ALocal.adjustAll db.abs c := by
      simp [LocalDB.adjustAll, ALocal.adjustAll, DB.abs, Function.comp_def, Row.toEntry]
    refine ⟨congrArg some e1, ?_⟩
    rintro db' ⟨⟩
    exact keptApart_same i s1 ((congrArg some e1).trans (hid _ rfl))

theorem keptApartL {h : Str → Int} {ops : List LOp} (s : SeparatedL h ops) (hr : RemovedApart h ops) :
    (LocalDB.run h DB.empty ops).map DB.abs = idealLocal ops ∧
    ∀ db, LocalDB.run h DB.empty ops = some db → KeptApartL h ops db := by
  induction ops using List.reverseRecOn with
  | nil =>
    refine ⟨rfl, ?_⟩
    rintro db ⟨⟩
    exact ⟨(DB.inU_empty h (fun _ => True)).wf, rfl, fun e he => (by cases he), fun p hp => (by cases hp)⟩
  | append_singleton ops op ih =>
    obtain ⟨h1, h2⟩ := ih s.before hr.before
    rw [localRun_snoc, idealLocal_snoc, ← h1]
    cases hrun : LocalDB.run h DB.empty ops with
    | none => exact ⟨rfl, fun db hdb => by cases hdb⟩
    | some db => exact keptApartL_step s hr (h2 db hrun)

/-- Missing for the full claim: see `C10_batch_partial`, and `C10_rm_fails` for what `RemovedApart` excludes. What holds, for
all histories of calls on a profile's database, with any number of paths that have the same hash: a call raises an
exception if and only if it would without ids, the entries are those of a database that knows no ids, and every path
that is in it is found with its own data. -/
theorem C10_profile_partial {h : Str → Int} {ops : List LOp} (s : SeparatedL h ops) (hr : RemovedApart h ops) :
    (LocalDB.run h DB.empty ops).map DB.abs = idealLocal ops ∧
    ∀ db a, LocalDB.run h DB.empty ops = some db → idealLocal ops = some a → ∀ p ∈ paths a,
      DB.getPathInfo h db p = (info a p).map (fun e => (e.directory, e.data)) := by
  have k := keptApartL s hr
  refine ⟨k.1, fun db a hdb ha p hp => ?_⟩
  have kd := k.2 db hdb
  have hab : db.abs = a := by
    have := kd.abs
    rw [ha] at this
    exact Option.some.inj this
  rw [← hab] at hp ⊢
  exact DB.getPathInfo_refine kd.wf (kd.wf.idOK hp)

/-! ### A directory that is removed with its entries -/

/-- `x` and `q` have the same hash; no hash with a salt is that of another path. -/
def exHashL (s : Str) : Int :=
  if s = ['x'] ∨ s = ['q'] then 0 else if s = "q/f".toList then 1 else if s = "xs".toList then 2 else
  if s = "qs".toList then 3 else if s = "q/fs".toList then 4 else 5

/-- A file `x` with priority 3, a directory `q` with a file, which is then removed, with or without naming the file. -/
def exRemove (ps : List Path) : List LOp := [.add [([['x']], false)] 3 true (fun _ => ['s']),
  .add [([['q']], true), ([['q'], ['f']], false)] 1 true (fun _ => ['s']), .rm ps]

theorem exRemove_separated {ps : List Path} (hps : ∀ p ∈ ps, p = [['q']] ∨ p = [['q'], ['f']]) :
    SeparatedL exHashL (exRemove ps) where
  parents l op r a e ha h := by
    rcases l with _ | ⟨x, _ | ⟨y, _ | ⟨z, l⟩⟩⟩ <;> simp [exRemove] at e
    · obtain ⟨rfl, _⟩ := e
      intro p hp
      simp [LOp.paths] at hp
      subst hp
      exact ⟨by decide, fun h => absurd rfl h⟩
    · obtain ⟨_, rfl, _⟩ := e
      intro p hp
      simp [LOp.paths] at hp
      rcases hp with rfl | rfl
      · exact ⟨by decide, fun h => absurd rfl h⟩
      · exact ⟨by decide, fun _ => Or.inr (by simp [LOp.paths])⟩
    · obtain ⟨_, _, rfl, _⟩ := e
      cases ha
  known l op r a e ha h p hp := by
    rcases l with _ | ⟨x, _ | ⟨y, _ | ⟨z, l⟩⟩⟩ <;> simp [exRemove] at e
    · rw [← e.1] at ha; cases ha
    · rw [← e.2.1] at ha; cases ha
    · obtain ⟨rfl, rfl, rfl, _⟩ := e
      cases h
      rcases hps p hp with rfl | rfl <;> decide +kernel
  batch l op r a e ha h p hp q hq _ _ hne := by
    rcases l with _ | ⟨x, _ | ⟨y, _ | ⟨z, l⟩⟩⟩ <;> simp [exRemove] at e
    · obtain ⟨rfl, _⟩ := e
      simp [LOp.paths] at hp hq
      exact absurd (hp.trans hq.symm) hne
    · obtain ⟨_, rfl, _⟩ := e
      simp [LOp.paths] at hp hq
      rcases hp with rfl | rfl <;> rcases hq with rfl | rfl <;> first | exact absurd rfl hne | decide +kernel
    · obtain ⟨_, _, rfl, _⟩ := e
      cases ha
  salts op ho op' ho' p hp q hq hne o ho2 f hf := by
    have hsub : ∀ o ∈ exRemove ps, ∀ x ∈ o.paths, x = [['x']] ∨ x = [['q']] ∨ x = [['q'], ['f']] := by
      intro o ho x hx
      simp only [exRemove, List.mem_cons, List.not_mem_nil, or_false] at ho
      rcases ho with rfl | rfl | rfl
      · simp [LOp.paths] at hx; exact Or.inl hx
      · simp [LOp.paths] at hx; exact Or.inr hx
      · exact Or.inr (hps x hx)
    have hsalt : ∀ o ∈ exRemove ps, ∀ f, o.GivesSalt f → ∀ x, f x = ['s'] := by
      intro o ho f hf x
      simp only [exRemove, List.mem_cons, List.not_mem_nil, or_false] at ho
      rcases ho with rfl | rfl | rfl
      · cases hf; rfl
      · cases hf; rfl
      · cases hf
    rw [hsalt o ho2 f hf]
    refine ⟨?_, fun o' ho3 g hg => ?_⟩
    · rcases hsub op ho p hp with rfl | rfl | rfl <;> rcases hsub op' ho' q hq with rfl | rfl | rfl <;>
        first | exact absurd rfl hne | decide +kernel
    · rw [hsalt o' ho3 g hg]
      rcases hsub op ho p hp with rfl | rfl | rfl <;> rcases hsub op' ho' q hq with rfl | rfl | rfl <;>
        first | exact absurd rfl hne | decide +kernel

/-- Only the directory is named: the other path keeps its data. -/
example : ∃ db, LocalDB.run exHashL DB.empty (exRemove [[['q']]]) = some db ∧
    DB.getPathInfo exHashL db [['x']] = some (false, ⟨3, true⟩) := by
  have hs : SeparatedL exHashL (exRemove [[['q']]]) := exRemove_separated (by simp)
  have hr : RemovedApart exHashL (exRemove [[['q']]]) := by
    intro ps hps p hp d hd h1 h2
    simp [exRemove] at hps
    subst hps
    simp at hp hd
    exact absurd (hd.trans hp.symm) h2
  obtain ⟨db, hdb⟩ : ∃ db, LocalDB.run exHashL DB.empty (exRemove [[['q']]]) = some db := ⟨_, rfl⟩
  obtain ⟨a, ha⟩ : ∃ a, idealLocal (exRemove [[['q']]]) = some a := ⟨_, rfl⟩
  refine ⟨db, hdb, ?_⟩
  have h1 : [['x']] ∈ paths a := by cases ha; decide +kernel
  rw [(C10_profile_partial hs hr).2 db a hdb ha _ h1]
  cases ha
  decide +kernel

/-- The claim of `C10_profile_partial` without `RemovedApart`. -/
def C10Profile : Prop := ∀ (h : Str → Int) (ops : List LOp) (db : LocalDB) (a : ALocal), SeparatedL h ops →
  LocalDB.run h DB.empty ops = some db → idealLocal ops = some a →
  ∀ p ∈ paths a, DB.getPathInfo h db p = (info a p).map (fun e => (e.directory, e.data))

/-- C10 fails for removals of known paths: when a directory is removed together with something in it, as a sync does for
a deleted directory, `rm_paths` forgets the salt of the directory and then updates it as if it were still there. What it
finds with the hash alone is the other path: the priority of the file `x` becomes 0, and it counts as not kept locally. -/
theorem C10_rm_fails : ¬ C10Profile := by
  intro h
  have hs : SeparatedL exHashL (exRemove [[['q']], [['q'], ['f']]]) := exRemove_separated (by simp)
  have h1 := h exHashL _ _ _ hs rfl rfl [['x']] (by decide +kernel)
  revert h1
  decide +kernel

end Verif
