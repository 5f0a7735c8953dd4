import Verif.Configured
import Verif.Saved
import Verif.Props.C46_Overlap
import Verif.Props.C74_Watch
import Verif.Props.C77_Storage
import Verif.Props.C99_Trash
/-
C100: a sync obeys the options that are written in the config file.
-/
namespace Verif
open Prog OSM Call FSTools WM Posix

/-- The value that an option has in a text with the lines `ls`: that of the last line which sets it, or else the
documented default. -/
def ValueIn (ls : List Str) (k v : Str) : Prop :=
  LastAssigns ls k v ∨ ((∀ l ∈ ls, ∀ v', ¬ Assigns l k v') ∧ DocDefault k v)

/-- The syntax of config files: the required options are set, no unknown option is set, and the values are valid. -/
def ValidText (ls : List Str) : Prop :=
  (∀ k ∈ ["LocalDir".toList, "RemoteDir".toList, "StorageLimit".toList], ∃ l ∈ ls, ∃ v, Assigns l k v) ∧
  (∀ k v, LastAssigns ls k v →
    k ∈ ["LocalDir".toList, "RemoteDir".toList, "StorageLimit".toList, "SyncInterval".toList,
      "PriorityHalfLife".toList, "UseTrash".toList, "TrashCleanupPeriod".toList,
      "InflatePriority".toList, "AccountForSize".toList] ∧ ValidOption k v)

theorem optVal_eq {T : Str} {ls : List Str} (hl : LinesOf T ls) {k v : Str} (h : ValueIn ls k v) : optVal T k = v := by
  unfold optVal
  rw [(C38_value hl k v).2 h]
  rfl

theorem truth_iff {T : Str} {ls : List Str} (hl : LinesOf T ls) {k v : Str} (h : ValueIn ls k v) :
    truth T k = true ↔ v = "yes".toList ∨ v = "true".toList := by
  unfold truth convertBool
  rw [optVal_eq hl h]
  have e : v ∈ trueVals ↔ v = "yes".toList ∨ v = "true".toList := by
    simp only [trueVals, List.mem_cons, List.not_mem_nil, or_false]
  rw [← e]
  by_cases h1 : v ∈ trueVals
  · rw [if_pos h1]
    exact ⟨fun _ => h1, fun _ => rfl⟩
  · rw [if_neg h1]
    refine ⟨fun h2 => ?_, fun h2 => absurd h2 h1⟩
    split at h2 <;> cases h2

/-- C100: if there is an error in the config file then a sync changes nothing. -/
theorem C100_refused (h : Host) {T : Str} {ls : List Str} (hl : LinesOf T ls) (hv : ¬ ValidText ls) (w : World) :
    syncText h T w = (.error .parse, w) := by
  have := mt (C38_checkAll hl).1 hv
  unfold syncText
  rw [if_pos this]
  rfl

/-- A sync with a valid config file is a sync with its options, if the limit can be read. -/
theorem syncText_eq {h : Host} {T : Str} {ls : List Str} (hl : LinesOf T ls) (hv : ValidText ls) {l r : Path}
    (h1 : h.loc T = some l) (h2 : h.rem T = some r) {v num : Str} {p : Char} {u : Str}
    (hs : LastAssigns ls "StorageLimit".toList v) (hn : LimitValue v num p u) (hp : p ∈ ['K', 'k', 'M', 'G'])
    (hu : u ∈ ["".toList, "B".toList, "iB".toList]) : syncText h T = sync (h.env T) := by
  unfold syncText
  rw [if_neg (not_not.2 ((C38_checkAll hl).2 hv)), if_neg (by simp [h1, h2]), optVal_eq hl (Or.inl hs),
    C36_understood_partial (lastAssigns_stripped hs) hn hp hu]

/-- The sync with the options of the text starts from a state that is in order (`SyncReady`). -/
structure TextReady (h : Host) (T : Str) (ls : List Str) (w : World) : Prop where
  lines : LinesOf T ls
  valid : ValidText ls
  loc : ∃ l, h.loc T = some l
  rem : ∃ r, h.rem T = some r
  limit : ∃ v num p u, LastAssigns ls "StorageLimit".toList v ∧ LimitValue v num p u ∧ p ∈ ['K', 'k', 'M', 'G'] ∧
    u ∈ ["".toList, "B".toList, "iB".toList]
  ready : SyncReady (h.env T) w

theorem TextReady.eq {h : Host} {T : Str} {ls : List Str} {w : World} (t : TextReady h T ls w) :
    syncText h T = sync (h.env T) := by
  obtain ⟨l, h1⟩ := t.loc
  obtain ⟨r, h2⟩ := t.rem
  obtain ⟨v, num, p, u, h3, h4, h5, h6⟩ := t.limit
  exact syncText_eq t.lines t.valid h1 h2 h3 h4 h5 h6

/-! ### The directories -/

theorem pathOf_absStr {p : Path} (h : GoodPath p) : pathOf (absStr p) = some p := by
  cases p with
  | nil => rfl
  | cons c q =>
    have hc := h.head
    have h1 : split (toStr (c :: q)) = c :: q := split_intercalate _ (by simp) h.noSep
    have h2 : ∃ a s, toStr (c :: q) = a :: s ∧ a ≠ '/' := by
      cases hs : toStr (c :: q) with
      | nil => exact absurd hs (toStr_ne_nil h (by simp))
      | cons a s =>
        refine ⟨a, s, rfl, ?_⟩
        rintro rfl
        have := isabs_toStr h
        rw [hs] at this
        cases this
    obtain ⟨a, s, h3, h4⟩ := h2
    unfold absStr
    rw [h3] at h1 ⊢
    unfold pathOf
    split
    · rename_i h5; simp at h5
    · rename_i h5
      simp only [List.cons.injEq, true_and] at h5
      exact absurd h5.1 h4
    · rename_i r h5 h6 h7
      simp only [List.cons.injEq, true_and] at h7
      rw [← h7, h1]
    · rename_i h5
      exact absurd rfl (h5 (a :: s))

theorem normpath_toStr {p : Path} (h : GoodPath p) (h0 : p ≠ []) : normpath (toStr p) = toStr p := by
  have hs : initialSlashes (toStr p) = 0 := by
    have hr := isabs_toStr h
    unfold initialSlashes
    split <;> first | rfl | (rename_i he; rw [he] at hr; cases hr)
  have e : (split (toStr p)).foldl (normStep 0) [] = p.reverse := by
    rw [toStr, split_intercalate p h0 h.noSep, normStep_good 0 h, List.append_nil]
  unfold normpath
  rw [if_neg (toStr_ne_nil h h0)]
  dsimp only
  rw [hs, e, List.reverse_reverse]
  exact if_neg (toStr_ne_nil h h0)

/-- C100: the local directory is the one that is written in the config file, from the root or from the home directory. -/
theorem C100_local_partial {h : Host} {home : Path} (hh : h.home = absStr home) (hg : GoodPath home) {T : Str}
    {ls : List Str} (hl : LinesOf T ls) {p : Path} (hp : GoodPath p) :
    (LastAssigns ls "LocalDir".toList (absStr p) → h.loc T = some p) ∧
    (LastAssigns ls "LocalDir".toList ('~' :: absStr p) → p ≠ [] → h.loc T = some (home ++ p)) ∧
    (LastAssigns ls "RemoteDir".toList (absStr p) → h.rem T = some p) ∧
    (LastAssigns ls "RemoteDir".toList ('~' :: absStr p) → p ≠ [] → h.rem T = some (home ++ p)) := by
  have a1 : pathOf (localPath h.home h.user (absStr p)) = some p := by
    unfold localPath
    rw [normpath_absStr hp]
    exact pathOf_absStr hp
  have a2 : p ≠ [] → pathOf (localPath h.home h.user ('~' :: absStr p)) = some (home ++ p) := by
    intro h0
    have e : normpath ('~' :: absStr p) = '~' :: absStr p := by
      have h1 : GoodPath (['~'] :: p) := by
        intro c hc
        rcases List.mem_cons.1 hc with rfl | hc
        · decide
        · exact hp c hc
      have h2 : '~' :: absStr p = toStr (['~'] :: p) := by
        show _ = intercalate (['~'] :: p)
        rw [intercalate_cons _ _ h0]
        rfl
      rw [h2]
      exact normpath_toStr h1 (by simp)
    unfold localPath
    rw [e, expanduser_tilde]
    have e1 : (absStr p).takeWhile (· != '/') = [] := rfl
    have e2 : (absStr p).dropWhile (· != '/') = absStr p := rfl
    rw [e1, e2, if_pos rfl, hh]
    dsimp only
    have := home_join hg hp (absStr p) (by rw [if_neg h0]; rfl)
    dsimp only at this
    rw [this]
    exact pathOf_absStr (goodPath_append.2 ⟨hg, hp⟩)
  unfold Host.loc Host.rem
  refine ⟨fun h1 => ?_, fun h1 h2 => ?_, fun h1 => ?_, fun h1 h2 => ?_⟩ <;> rw [optVal_eq hl (Or.inl h1)]
  · exact a1
  · exact a2 h2
  · exact a1
  · exact a2 h2

/-! ### The storage limit -/

/-- C100: after a sync that has succeeded the local directory takes no more space than the config file says: a number of
units of 1000 or 1024 bytes, or of the second or third power of that. What is assumed is what C77 assumes. -/
theorem C100_limit_partial {h : Host} {T : Str} {ls : List Str} {w : World} (t : TextReady h T ls w)
    (c : Calm (h.env T) w) {v num : Str} {p : Char} {u : Str} (hs : LastAssigns ls "StorageLimit".toList v)
    (hn : LimitValue v num p u) (ok : (syncText h T w).1 = .ok ())
    (hc : ∀ p a b, ChangedLocally (h.env T) w p → ChangedRemotely (h.env T) w p →
      w.os.fs.get ((h.env T).loc ++ p) = some a →
      w.os.fs.get ((h.env T).rem ++ p) = some b → a.isDir = false → ¬ a.mtime < b.mtime)
    (hx : ∀ p, OwnExcludes (h.env T) w.os.fs p → p ∉ ADB.paths w.db ∧ w.os.fs.get ((h.env T).rem ++ p) = none)
    {F K : List Path} (hF : F.Nodup) (hK : K.Nodup)
    (hFl : ∀ p ∈ F, p ≠ [] ∧ ∃ k m b, (syncText h T w).2.os.fs.get ((h.env T).loc ++ p) = some (.file k m b))
    (hKl : ∀ p ∈ K, UserPath p ∧ (∃ k m b, (syncText h T w).2.os.fs.get ((h.env T).rem ++ p) = some (.file k m b)) ∧
      ∃ t m, (syncText h T w).2.os.fs.get ((h.env T).loc ++ p) = some (.link t m))
    (hne : ∃ p ∈ F, ¬ OwnExcludes (h.env T) w.os.fs p) :
    usedIn (syncText h T w).2.os.fs (h.env T).loc F + K.length * h.symlinkSize ≤
      digitsValue num * (if u = "B".toList then 1000 else 1024) ^ (if p = 'M' then 2 else if p = 'G' then 3 else 1) := by
  obtain ⟨v', num', p', u', h1, h2, h3, h4⟩ := t.limit
  have hv : v' = v := by
    have e1 := (lastAssigns_iff t.lines _ _).2 h1
    have e2 := (lastAssigns_iff t.lines _ _).2 hs
    rw [e1] at e2
    exact Option.some.inj e2
  subst hv
  have st := lastAssigns_stripped hs
  have e3 := (matchLimit_iff st _ _ _).2 hn
  rw [(matchLimit_iff st _ _ _).2 h2] at e3
  simp only [Option.some.injEq, Prod.mk.injEq] at e3
  obtain ⟨rfl, rfl, rfl⟩ := e3
  rw [t.eq] at *
  have := C77_partial t.ready c ok hc hx hF hK hFl hKl hne
  have e4 : (h.env T).storageLimit = ((digitsValue num' * (if u' = "B".toList then 1000 else 1024) ^
      (if p' = 'M' then 2 else if p' = 'G' then 3 else 1) : Nat) : Int) := by
    show (((storageLimit (optVal T "StorageLimit".toList)).getD 0 : Nat) : Int) = _
    rw [optVal_eq t.lines (Or.inl hs), C36_understood_partial st h2 h3 h4]
    rfl
  rw [e4] at this
  exact_mod_cast this

theorem bind_ok_inv {σ α β : Type} {m : Prog σ α} {f : α → Prog σ β} {s : σ} {b : β} (h : ((m >>= f) s).1 = .ok b) :
    ∃ a s', m s = (.ok a, s') ∧ (f a s').1 = .ok b := by
  change (match m s with
    | (.ok a, s') => f a s'
    | (.error e, s') => (.error e, s')).1 = _ at h
  cases hm : m s with
  | mk r s' =>
    rw [hm] at h
    cases r with
    | error e => cases h
    | ok a => exact ⟨a, s', rfl, h⟩

/-- C100 fails for the limits that are accepted but not understood (C36): no sync ever succeeds. -/
theorem C100_limit_never (h : Host) {T : Str} {ls : List Str} (hl : LinesOf T ls) {v num : Str} {p : Char} {u : Str}
    (hs : LastAssigns ls "StorageLimit".toList v) (hn : LimitValue v num p u)
    (hb : p ∉ ['K', 'k', 'M', 'G'] ∨ u ∉ ["".toList, "B".toList, "iB".toList]) (w : World) :
    (syncText h T w).1 ≠ .ok () := by
  have hc : checkValue "StorageLimit".toList v = none := by
    rw [checkValue_iff (by decide) (lastAssigns_stripped hs)]
    exact .limit hn
  have h0 := (C36_raises_iff (lastAssigns_stripped hs) hc).2 ⟨num, p, u, hn, hb⟩
  unfold syncText
  split
  · exact fun h => by cases h
  · split
    · exact fun h => by cases h
    · rw [optVal_eq hl (Or.inl hs), h0]
      dsimp only
      unfold syncNoLimit
      intro hok
      obtain ⟨⟨d, n, m⟩, w1, _, h2⟩ := bind_ok_inv hok
      obtain ⟨_, w2, _, h3⟩ := bind_ok_inv h2
      obtain ⟨_, w3, _, h4⟩ := bind_ok_inv h3
      obtain ⟨_, w4, _, h5⟩ := bind_ok_inv h4
      cases h5

/-- C100: nor does any of them save anything: the database of the profile, the remote database and the time of the last
sync stay as they were, although files may have been moved or copied to the remote directory. So what such a sync has
done is not recorded, and a limit that is corrected later finds the records of the last sync that succeeded. -/
theorem C100_limit_unsaved (h : Host) {T : Str} {ls : List Str} (hl : LinesOf T ls) {v num : Str} {p : Char} {u : Str}
    (hs : LastAssigns ls "StorageLimit".toList v) (hn : LimitValue v num p u)
    (hb : p ∉ ['K', 'k', 'M', 'G'] ∨ u ∉ ["".toList, "B".toList, "iB".toList]) (w : World) :
    (syncText h T w).2.dbSaved = w.dbSaved ∧ (syncText h T w).2.rdbSaved = w.rdbSaved ∧
      (syncText h T w).2.lastSaved = w.lastSaved := by
  have hc : checkValue "StorageLimit".toList v = none := by
    rw [checkValue_iff (by decide) (lastAssigns_stripped hs)]
    exact .limit hn
  have h0 := (C36_raises_iff (lastAssigns_stripped hs) hc).2 ⟨num, p, u, hn, hb⟩
  have hu : Unsaved (syncText h T) := by
    unfold syncText
    refine .ite (fun _ => ⟨rfl, rfl, rfl⟩) (.ite (fun _ => ⟨rfl, rfl, rfl⟩) ?_)
    rw [optVal_eq hl (Or.inl hs), h0]
    exact (Unsaved.syncScan _).bind (fun _ => (Unsaved.syncRemote _ _ _ _).bind (fun _ =>
      (Unsaved.exclMatches _).bind (fun _ => (Unsaved.scanRemote _).bind (fun _ _ => ⟨rfl, rfl, rfl⟩))))
  have := hu w
  unfold wp at this
  cases hr : syncText h T w with
  | mk r w' =>
    rw [hr] at this
    cases r with
    | ok _ => exact this
    | error _ => exact this

/-! ### The trash -/

/-- C100: with `UseTrash=yes` or `UseTrash=true`, or without the option, what was deleted and was not kept locally is in
the trash after a sync that has succeeded, with the time of the sync. What is assumed is what C99 assumes. -/
theorem C100_trash_partial {h : Host} {T : Str} {ls : List Str} {w : World} (t : TextReady h T ls w) {v : Str}
    (hv : ValueIn ls "UseTrash".toList v) (hy : v = "yes".toList ∨ v = "true".toList)
    {e : Entry PData} (he : e ∈ w.db) (hl : e.data.loc = false) (hd : Deleted (h.env T) w e.path) {n : Node}
    (hf : w.os.fs.get ((h.env T).rem ++ e.path) = some n) (hlk : n.isLink = false)
    (dist : ∀ p, Deleted (h.env T) w p → ∀ x, TrashTarget (h.env T) w.os.fs p x →
      TrashTarget (h.env T) w.os.fs e.path x → p = e.path)
    {days : Str} (hp : ValueIn ls "TrashCleanupPeriod".toList days) (hdays : Digits days)
    (short : ∀ k k', During w (syncText h T w).2 k → During w (syncText h T w).2 k' →
      digitsValue days ≠ 0 → w.os.clk k' < w.os.clk k + digitsValue days * (24 * 60 * 60))
    (ok : (syncText h T w).1 = .ok ()) :
    ∃ x k, w.os.fs.get ((h.env T).trash ++ [x]) = none ∧ During w (syncText h T w).2 k ∧
      InTrash (h.env T) w.os.fs e.path n (w.os.clk k) x (syncText h T w).2.os.fs := by
  rw [t.eq] at *
  refine C99_moved_partial t.ready ((truth_iff t.lines hv).2 hy) he hl hd hf hlk dist ?_ ok
  intro x hx k k' h1 h2 h0
  have e1 : (h.env T).cleanup = cleanupPeriod days := by
    show cleanupPeriod (optVal T "TrashCleanupPeriod".toList) = _
    rw [optVal_eq t.lines hp]
  rw [e1, cleanupPeriod_digits hdays] at hx
  cases hx
  exact short k k' h1 h2 (by rintro h3; rw [h3] at h0; exact h0 rfl)

/-- C100: with any other value of `UseTrash`, such as `no` or `false`, nothing is put into the trash by a sync that has
succeeded. -/
theorem C100_no_trash_partial {h : Host} {T : Str} {ls : List Str} {w : World} (t : TextReady h T ls w) {v : Str}
    (hv : ValueIn ls "UseTrash".toList v) (hn : v ≠ "yes".toList ∧ v ≠ "true".toList)
    (ok : (syncText h T w).1 = .ok ()) {c : Str} (hc : w.os.fs.get ((h.env T).trash ++ [c]) = none) :
    (syncText h T w).2.os.fs.get ((h.env T).trash ++ [c]) = none := by
  rw [t.eq] at *
  have hu : (h.env T).useTrash = false := by
    cases hb : (h.env T).useTrash with
    | false => rfl
    | true =>
      rcases (truth_iff t.lines hv).1 hb with h1 | h1
      · exact absurd h1 hn.1
      · exact absurd h1 hn.2
  have r := t.ready
  generalize h.env T = env at *
  have hok := wp_ok (wp_sync r) (show sync env w = (.ok (), (sync env w).2) by rw [← ok])
  generalize (sync env w).2 = w' at *
  obtain ⟨_, del, new, mod, w1, w2, upd, w3, cp, DL, DR, l, w4, sel, rex, w5, w6, h4, h5, h6⟩ := hok
  have os5 : w5.os = w4.os := by obtain ⟨x, y, rfl⟩ := h5.same; rfl
  have h0 : del.trash = [] := by
    cases hd : del.trash with
    | nil => rfl
    | cons a l =>
      have := ((h4.sc.trashIff a).1 (by rw [hd]; simp)).1
      rw [hu] at this
      cases this
  have sub : env.trash <+: env.trash ++ [c] := List.prefix_append _ _
  have h7 := h4.cl.noTrash h0 c hc
  have h8 : w3.os.fs.get (env.trash ++ [c]) = none := by
    rw [h4.rb.eff.other _ ?_ ?_]
    · exact h7
    · intro p hp
      exact ⟨(loc_not_trash r.apart sub).symm, (loc_not_trash r.apart sub).symm⟩
    · intro p hp
      exact ⟨(plain_not_trash (h4.rb.ctx.user p (Or.inr hp)).1.plain sub).symm,
        (plain_not_trash (h4.rb.ctx.cuser p (Or.inr hp)).1.plain sub).symm⟩
  have h9 : w4.os.fs.get (env.trash ++ [c]) = none := by
    have plain : ∀ p ∈ l, PlainPath p := by
      intro p hp
      obtain ⟨_, _, f, hf, hfp⟩ := h4.ub.listed p hp
      exact (PlainPath.extend (h4.rs.updLoc f hf).1 hfp).plain
    have a1 : ¬ env.loc <+: env.trash ++ [c] := fun ⟨u, hu⟩ => loc_not_trash r.apart sub hu
    have a2 : ∀ p ∈ l, env.trash ++ [c] ≠ env.rem ++ p := fun p hp => (plain_not_trash (plain p hp) sub).symm
    rcases h4.ub.moved.new _ a1 a2 h8 with h | ⟨_, p, hp, hq⟩
    · exact h
    · exact absurd rfl (plain_not_trash (plain p hp) (sub.trans hq))
  have h10 : w6.os.fs.get (env.trash ++ [c]) = none := by
    rw [h6.kept.out _ (fun h => by
      obtain ⟨⟨u, hu⟩, _⟩ := h
      exact loc_not_trash r.apart sub hu), os5]
    exact h9
  rcases h6.ended.keeps.gone (env.trash ++ [c]) with h | h
  · exact h.trans h10
  · exact h

/-- C100: after a sync that has succeeded there is nothing in the trash, apart from links, that was at a certain time of
the sync as many days old as the config file says, or 30 days if it does not say anything. The number must not be zero. -/
theorem C100_days_partial {h : Host} {T : Str} {ls : List Str} {w : World} (t : TextReady h T ls w) {days : Str}
    (hp : ValueIn ls "TrashCleanupPeriod".toList days) (hd : Digits days) (h0 : digitsValue days ≠ 0)
    (ok : (syncText h T w).1 = .ok ()) :
    ∃ k, During w (syncText h T w).2 k ∧ ∀ c n, (syncText h T w).2.os.fs.get ((h.env T).trash ++ [c]) = some n →
      n.isLink = false → w.os.clk k < n.mtime + digitsValue days * (24 * 60 * 60) := by
  rw [t.eq] at *
  refine C99_cleaned_partial t.ready ?_ hd h0 ok
  show cleanupPeriod (optVal T "TrashCleanupPeriod".toList) = _
  rw [optVal_eq t.lines hp]

/-! ### Examples -/

def exHost (size : Nat) : Host where
  home := "/".toList
  user _ := none
  excl := exEnvE.excl
  id := exEnvE.id
  patsOf := exEnvE.patsOf
  stamp := exEnvE.stamp
  order := exEnvE.order
  symlinkSize := size

/-- Files in the trash are deleted after one day, and the trash is used because nothing else is said. -/
def exConf : Str :=
  "# zielen\nLocalDir = /l/\nRemoteDir=~/r\nStorageLimit=7 GB\nStorageLimit=100 kB\r\nTrashCleanupPeriod=1\nInflatePriority=no\nAccountForSize=false".toList

/-- The trash is not used. -/
def exConfNo : Str :=
  "LocalDir=/l\nRemoteDir=/r\nStorageLimit=100kB\nUseTrash=no\nTrashCleanupPeriod=1\nInflatePriority=no\nAccountForSize=no\n".toList

/-- There is little space. -/
def exConfSmall : Str :=
  "LocalDir=/l\nRemoteDir=/r\nStorageLimit=2 kB\nTrashCleanupPeriod=-1\nInflatePriority=no\nAccountForSize=no\n".toList

theorem exConf_read : configRead [] exConf =
    [("LocalDir".toList, "/l/".toList),
      ("RemoteDir".toList, "~/r".toList),
      ("StorageLimit".toList, "100 kB".toList),
      ("TrashCleanupPeriod".toList, "1".toList),
      ("InflatePriority".toList, "no".toList),
      ("AccountForSize".toList, "false".toList)] := by
  decide +kernel

theorem exConf_env : (exHost 0).env exConf = exEnvDays "1".toList true := by
  have h1 : (exHost 0).loc exConf = some ["l".toList] := by unfold Host.loc optVal; rw [exConf_read]; decide +kernel
  have h2 : (exHost 0).rem exConf = some ["r".toList] := by unfold Host.rem optVal; rw [exConf_read]; decide +kernel
  have h3 : truth exConf "UseTrash".toList = true := by unfold truth optVal; rw [exConf_read]; decide +kernel
  have h4 : truth exConf "InflatePriority".toList = false := by unfold truth optVal; rw [exConf_read]; decide +kernel
  have h5 : truth exConf "AccountForSize".toList = false := by unfold truth optVal; rw [exConf_read]; decide +kernel
  have h6 : storageLimit (optVal exConf "StorageLimit".toList) = some 100000 := by unfold optVal; rw [exConf_read]; decide +kernel
  have h7 : optVal exConf "TrashCleanupPeriod".toList = "1".toList := by unfold optVal; rw [exConf_read]; decide +kernel
  unfold Host.env
  rw [h1, h2, h3, h4, h5, h6, h7]
  rfl

theorem exConfNo_read : configRead [] exConfNo =
    [("LocalDir".toList, "/l".toList),
      ("RemoteDir".toList, "/r".toList),
      ("StorageLimit".toList, "100kB".toList),
      ("UseTrash".toList, "no".toList),
      ("TrashCleanupPeriod".toList, "1".toList),
      ("InflatePriority".toList, "no".toList),
      ("AccountForSize".toList, "no".toList)] := by
  decide +kernel

theorem exConfNo_env : (exHost 0).env exConfNo = exEnvDays "1".toList false := by
  have h1 : (exHost 0).loc exConfNo = some ["l".toList] := by unfold Host.loc optVal; rw [exConfNo_read]; decide +kernel
  have h2 : (exHost 0).rem exConfNo = some ["r".toList] := by unfold Host.rem optVal; rw [exConfNo_read]; decide +kernel
  have h3 : truth exConfNo "UseTrash".toList = false := by unfold truth optVal; rw [exConfNo_read]; decide +kernel
  have h4 : truth exConfNo "InflatePriority".toList = false := by unfold truth optVal; rw [exConfNo_read]; decide +kernel
  have h5 : truth exConfNo "AccountForSize".toList = false := by unfold truth optVal; rw [exConfNo_read]; decide +kernel
  have h6 : storageLimit (optVal exConfNo "StorageLimit".toList) = some 100000 := by unfold optVal; rw [exConfNo_read]; decide +kernel
  have h7 : optVal exConfNo "TrashCleanupPeriod".toList = "1".toList := by unfold optVal; rw [exConfNo_read]; decide +kernel
  unfold Host.env
  rw [h1, h2, h3, h4, h5, h6, h7]
  rfl

theorem exConfSmall_read : configRead [] exConfSmall =
    [("LocalDir".toList, "/l".toList),
      ("RemoteDir".toList, "/r".toList),
      ("StorageLimit".toList, "2 kB".toList),
      ("TrashCleanupPeriod".toList, "-1".toList),
      ("InflatePriority".toList, "no".toList),
      ("AccountForSize".toList, "no".toList)] := by
  decide +kernel

theorem exConfSmall_env : (exHost 100).env exConfSmall = exEnvS := by
  have h1 : (exHost 100).loc exConfSmall = some ["l".toList] := by unfold Host.loc optVal; rw [exConfSmall_read]; decide +kernel
  have h2 : (exHost 100).rem exConfSmall = some ["r".toList] := by unfold Host.rem optVal; rw [exConfSmall_read]; decide +kernel
  have h3 : truth exConfSmall "UseTrash".toList = true := by unfold truth optVal; rw [exConfSmall_read]; decide +kernel
  have h4 : truth exConfSmall "InflatePriority".toList = false := by unfold truth optVal; rw [exConfSmall_read]; decide +kernel
  have h5 : truth exConfSmall "AccountForSize".toList = false := by unfold truth optVal; rw [exConfSmall_read]; decide +kernel
  have h6 : storageLimit (optVal exConfSmall "StorageLimit".toList) = some 2000 := by unfold optVal; rw [exConfSmall_read]; decide +kernel
  have h7 : cleanupPeriod (optVal exConfSmall "TrashCleanupPeriod".toList) = none := by unfold optVal; rw [exConfSmall_read]; decide +kernel
  unfold Host.env
  rw [h1, h2, h3, h4, h5, h6, h7]
  rfl

theorem textReady_of {h : Host} {T : Str} {ls : List Str} {w : World} (hl : LinesOf T ls)
    (hv : checkAll (configRead [] T) true = []) (h1 : (h.loc T).isSome = true) (h2 : (h.rem T).isSome = true)
    {v num : Str} {p : Char} {u : Str} (hs : (configRead [] T).get "StorageLimit".toList = some v)
    (hst : Stripped v) (hm : matchLimit v = some (num, p, u)) (hp : p ∈ ['K', 'k', 'M', 'G'])
    (hu : u ∈ ["".toList, "B".toList, "iB".toList]) (r : SyncReady (h.env T) w) : TextReady h T ls w :=
  ⟨hl, (C38_checkAll hl).1 hv, Option.isSome_iff_exists.1 h1, Option.isSome_iff_exists.1 h2,
    ⟨v, num, p, u, (lastAssigns_iff hl _ _).1 hs, (matchLimit_iff hst _ _ _).1 hm, hp, hu⟩, r⟩

theorem exConf_ready {ls : List Str} (hl : LinesOf exConf ls) : TextReady (exHost 0) exConf ls (exTrash 1000) :=
  textReady_of (v := "100 kB".toList) (num := "100".toList) (p := 'k') (u := "B".toList) hl
    (by rw [exConf_read]; decide +kernel) (by unfold Host.loc optVal; rw [exConf_read]; decide +kernel)
    (by unfold Host.rem optVal; rw [exConf_read]; decide +kernel) (by rw [exConf_read]; decide +kernel) (by decide +kernel) (by decide +kernel) (by decide)
    (by decide) (by rw [exConf_env]; exact exTrash_ready _ _ _)

theorem exConfNo_ready {ls : List Str} (hl : LinesOf exConfNo ls) : TextReady (exHost 0) exConfNo ls (exTrash 1000) :=
  textReady_of (v := "100kB".toList) (num := "100".toList) (p := 'k') (u := "B".toList) hl
    (by rw [exConfNo_read]; decide +kernel) (by unfold Host.loc optVal; rw [exConfNo_read]; decide +kernel)
    (by unfold Host.rem optVal; rw [exConfNo_read]; decide +kernel) (by rw [exConfNo_read]; decide +kernel) (by decide +kernel) (by decide +kernel) (by decide)
    (by decide) (by rw [exConfNo_env]; exact exTrash_ready _ _ _)

theorem exConfSmall_ready {ls : List Str} (hl : LinesOf exConfSmall ls) : TextReady (exHost 100) exConfSmall ls exSpace :=
  textReady_of (v := "2 kB".toList) (num := "2".toList) (p := 'k') (u := "B".toList) hl
    (by rw [exConfSmall_read]; decide +kernel) (by unfold Host.loc optVal; rw [exConfSmall_read]; decide +kernel)
    (by unfold Host.rem optVal; rw [exConfSmall_read]; decide +kernel) (by rw [exConfSmall_read]; decide +kernel) (by decide +kernel) (by decide +kernel) (by decide)
    (by decide) (by rw [exConfSmall_env]; exact exSpace_ready)

theorem exConf_ok : (syncText (exHost 0) exConf (exTrash 1000)).1 = .ok () := by
  obtain ⟨ls, hl⟩ := linesOf_exists exConf
  rw [(exConf_ready hl).eq, exConf_env]
  decide +kernel

theorem exConfNo_ok : (syncText (exHost 0) exConfNo (exTrash 1000)).1 = .ok () := by
  obtain ⟨ls, hl⟩ := linesOf_exists exConfNo
  rw [(exConfNo_ready hl).eq, exConfNo_env]
  decide +kernel

/-- The trash of `exTrash` is cleaned up. -/
example : ∃ k, During (exTrash 1000) (syncText (exHost 0) exConf (exTrash 1000)).2 k ∧
    ∀ c n, (syncText (exHost 0) exConf (exTrash 1000)).2.os.fs.get (((exHost 0).env exConf).trash ++ [c]) = some n →
      n.isLink = false → (exTrash 1000).os.clk k < n.mtime + digitsValue "1".toList * (24 * 60 * 60) := by
  obtain ⟨ls, hl⟩ := linesOf_exists exConf
  exact C100_days_partial (exConf_ready hl) (Or.inl ((lastAssigns_iff hl _ _).1 (by rw [exConf_read]; decide +kernel))) digits_one
    (by decide) exConf_ok

/-- The directory `d`, which was deleted, is in the trash. -/
example : ∃ x k, (exTrash 1000).os.fs.get (((exHost 0).env exConf).trash ++ [x]) = none ∧
    During (exTrash 1000) (syncText (exHost 0) exConf (exTrash 1000)).2 k ∧
    InTrash ((exHost 0).env exConf) (exTrash 1000).os.fs ["d".toList] (.dir 3 8) ((exTrash 1000).os.clk k) x
      (syncText (exHost 0) exConf (exTrash 1000)).2.os.fs := by
  obtain ⟨ls, hl⟩ := linesOf_exists exConf
  have t := exConf_ready hl
  refine C100_trash_partial t (v := "yes".toList) ((C38_value hl _ _).1 (by rw [exConf_read]; decide +kernel)) (Or.inl rfl)
    (e := exRow ["d".toList] true 1 false) (by show _ ∈ [_, _, _, _, _]; simp) rfl ?_ ?_ rfl ?_
    (Or.inl ((lastAssigns_iff hl _ _).1 (by rw [exConf_read]; decide +kernel))) digits_one ?_ exConf_ok
  · rw [exConf_env]
    exact exTrash_top rfl 1000 (by simp [exRow])
  · rw [exConf_env]
    decide +kernel
  · rw [exConf_env]
    exact fun p hp t h1 h2 => exTrash_dist hp h1 h2
  · rw [t.eq, exConf_env]
    exact fun k k' hk hk' _ => exTrash_short hk hk'

/-- There is no limit, so nothing happens. -/
example (w : World) : syncText (exHost 0) "LocalDir=/l\nRemoteDir=/r\n".toList w = (.error .parse, w) := by
  obtain ⟨ls, hl⟩ := linesOf_exists "LocalDir=/l\nRemoteDir=/r\n".toList
  exact C100_refused _ hl (fun h => absurd ((C38_checkAll hl).2 h) (by decide +kernel)) w

/-- `~/r` is `/r`, because the home directory is `/`. -/
example : (exHost 0).rem exConf = some ([] ++ ["r".toList]) := by
  obtain ⟨ls, hl⟩ := linesOf_exists exConf
  exact (C100_local_partial (home := []) rfl (by decide) hl (p := ["r".toList]) (by decide)).2.2.2
    ((lastAssigns_iff hl _ _).1 (by rw [exConf_read]; decide +kernel)) (by decide)

/-- The file of `h` is not put into the trash as `h(1)`. -/
example : (syncText (exHost 0) exConfNo (exTrash 1000)).2.os.fs.get
    (((exHost 0).env exConfNo).trash ++ ["h(1)".toList]) = none := by
  obtain ⟨ls, hl⟩ := linesOf_exists exConfNo
  exact C100_no_trash_partial (exConfNo_ready hl) (v := "no".toList)
    (Or.inl ((lastAssigns_iff hl _ _).1 (by rw [exConfNo_read]; decide +kernel))) ⟨by decide, by decide⟩ exConfNo_ok (by
      rw [exConfNo_env]; decide +kernel)

/-- The local directory of `exSpace` takes at most 2 kB. -/
example : usedIn (syncText (exHost 100) exConfSmall exSpace).2.os.fs exEnvS.loc [["a".toList], ["e".toList]] +
    [["b".toList], ["c".toList]].length * (exHost 100).symlinkSize ≤ 2000 := by
  obtain ⟨ls, hl⟩ := linesOf_exists exConfSmall
  have t := exConfSmall_ready hl
  have e := exConfSmall_env
  have := C100_limit_partial t (by rw [e]; exact exSpace_calm) (v := "2 kB".toList) (num := "2".toList) (p := 'k')
    (u := "B".toList) ((lastAssigns_iff hl _ _).1 (by rw [exConfSmall_read]; decide +kernel))
    ((matchLimit_iff (by decide +kernel) _ _ _).1 (by decide +kernel)) (by rw [t.eq, e]; exact exSpace_sync.1)
    (by rw [e]; exact exSpace_older) (by rw [e]; exact exSpace_excluded)
    (F := [["a".toList], ["e".toList]]) (K := [["b".toList], ["c".toList]]) (by decide) (by decide)
    (by rw [t.eq, e]; exact exSpace_files) (by rw [t.eq, e]; exact exSpace_links)
    ⟨["a".toList], List.mem_cons_self, by rw [e]; exact exEnvS_not_excluded (by decide +kernel) (by decide)⟩
  rw [e, show digitsValue "2".toList = 2 by decide, if_pos rfl, if_neg (by decide), if_neg (by decide)] at this
  generalize (syncText (exHost 100) exConfSmall exSpace).2.os.fs = fs at this ⊢
  exact Nat.le_trans this (by decide)

/-- The limit `10mb` is accepted. -/
def exConfBad : Str :=
  "LocalDir=/l\nRemoteDir=/r\nStorageLimit=10mb\nTrashCleanupPeriod=1\nInflatePriority=no\nAccountForSize=no\n".toList

theorem exConfBad_read : configRead [] exConfBad =
    [("LocalDir".toList, "/l".toList),
      ("RemoteDir".toList, "/r".toList),
      ("StorageLimit".toList, "10mb".toList),
      ("TrashCleanupPeriod".toList, "1".toList),
      ("InflatePriority".toList, "no".toList),
      ("AccountForSize".toList, "no".toList)] := by
  decide +kernel

/-- With this limit a sync moves the file of a deleted link to the trash and saves nothing. -/
example : checkAll (configRead [] exConfBad) true = [] ∧
    (syncText (exHost 0) exConfBad (exTrash 1000)).2.os.fs.get ["r".toList, "h".toList] = none ∧
    (syncText (exHost 0) exConfBad (exTrash 1000)).2.os.fs.get (exEnvE.trash ++ ["h(1)".toList]) = some (.file 19 56 1) ∧
    (syncText (exHost 0) exConfBad (exTrash 1000)).2.dbSaved = (exTrash 1000).dbSaved := by
  have e : syncText (exHost 0) exConfBad = syncNoLimit ((exHost 0).env exConfBad) := by
    unfold syncText Host.loc Host.rem optVal
    rw [exConfBad_read]
    rw [if_neg (by decide +kernel), if_neg (by decide +kernel)]
    rw [show storageLimit ((vals _ "StorageLimit".toList).getD []) = none by decide +kernel]
  refine ⟨by rw [exConfBad_read]; decide +kernel, ?_, ?_, ?_⟩
  · rw [e]; unfold Host.env Host.loc Host.rem truth optVal; rw [exConfBad_read]; decide +kernel
  · rw [e]; unfold Host.env Host.loc Host.rem truth optVal; rw [exConfBad_read]; decide +kernel
  · obtain ⟨ls, hl⟩ := linesOf_exists exConfBad
    exact (C100_limit_unsaved (exHost 0) hl (v := "10mb".toList) (num := "10".toList) (p := 'm') (u := "b".toList)
      ((lastAssigns_iff hl _ _).1 (by rw [exConfBad_read]; decide +kernel))
      ((matchLimit_iff (by decide +kernel) _ _ _).1 (by decide +kernel)) (Or.inl (by decide)) (exTrash 1000)).1

/-- C100 fails for a limit that is accepted but not understood: no sync succeeds, whatever the state. -/
theorem C100_limit_fails : checkAll (configRead [] exConfBad) true = [] ∧
    ∀ (h : Host) (w : World), (syncText h exConfBad w).1 ≠ .ok () := by
  refine ⟨by rw [exConfBad_read]; decide +kernel, fun h w => ?_⟩
  obtain ⟨ls, hl⟩ := linesOf_exists exConfBad
  exact C100_limit_never h hl (v := "10mb".toList) (num := "10".toList) (p := 'm') (u := "b".toList)
    ((lastAssigns_iff hl _ _).1 (by rw [exConfBad_read]; decide +kernel)) ((matchLimit_iff (by decide +kernel) _ _ _).1 (by decide +kernel))
    (Or.inl (by decide)) w

end Verif
