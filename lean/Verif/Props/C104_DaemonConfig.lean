import Verif.DaemonConfig
import Verif.Props.C65_Reread
import Verif.Props.C90_HalfLife
import Verif.Props.C100_Configured
/-
C104: a running daemon follows the config file.
-/
namespace Verif

/-- The texts that the daemon has read. -/
def textsOf (es : List DaemonEvent) : List Str := es.filterMap (fun e => match e with
  | .read text => text
  | .adjust text => text
  | .check _ _ => none)

/-- `ls` are the lines of all these texts, one after the other. -/
def ReadLines (texts ls : List Str) : Prop := ∃ lss : List (List Str), List.Forall₂ LinesOf texts lss ∧ ls = lss.flatten

/-- `t` is the end of the last sync among what the daemon has done, or `first` if there is none. -/
def LastEnd (first : Int) (acts : List DaemonAct) (t : Int) : Prop :=
  (∃ a n b, acts = a ++ .sync n t :: b ∧ ∀ n' t', DaemonAct.sync n' t' ∉ b) ∨
  ((∀ n' t', DaemonAct.sync n' t' ∉ acts) ∧ t = first)

/-! ### Reading again and again is reading all lines -/

theorem linesOf_noNewline {T : Str} {ls : List Str} (h : LinesOf T ls) : ls ≠ [] ∧ ∀ l ∈ ls, '\n' ∉ l ∧ '\r' ∉ l := by
  induction h with
  | last h1 h2 => exact ⟨by simp, fun l hl => by rw [List.mem_singleton.1 hl]; exact ⟨h1, h2⟩⟩
  | cons h1 h2 _ _ ih =>
    refine ⟨by simp, fun l hl => ?_⟩
    rcases List.mem_cons.1 hl with rfl | hl
    · exact ⟨h1, h2⟩
    · exact ih.2 l hl

theorem linesOf_join (ls : List Str) (h0 : ls ≠ []) (h : ∀ l ∈ ls, '\n' ∉ l ∧ '\r' ∉ l) : ∃ T, LinesOf T ls := by
  induction ls with
  | nil => exact absurd rfl h0
  | cons l ls ih =>
    obtain ⟨h1, h2⟩ := h l List.mem_cons_self
    by_cases hn : ls = []
    · subst hn
      exact ⟨l, .last h1 h2⟩
    · obtain ⟨T, hT⟩ := ih hn (fun l' hl' => h l' (List.mem_cons_of_mem l hl'))
      exact ⟨_, .cons h1 h2 (Or.inl rfl) hT⟩

theorem rereads_eq {texts : List Str} {lss : List (List Str)} (h : List.Forall₂ LinesOf texts lss) (raw : Dict Str) :
    texts.foldl configRead raw = setAll raw (lss.flatten.filterMap parseLine) := by
  induction h generalizing raw with
  | nil => rfl
  | cons h1 _ ih =>
    rw [List.foldl_cons, ih, configRead_eq, assignments_linesOf h1, List.flatten_cons, List.filterMap_append]
    unfold setAll
    rw [List.foldl_append]

theorem readLines_text {texts ls : List Str} (h0 : texts ≠ []) (h : ReadLines texts ls) :
    ∃ T, LinesOf T ls ∧ texts.foldl configRead [] = configRead [] T := by
  obtain ⟨lss, h1, rfl⟩ := h
  have hp : lss.flatten ≠ [] ∧ ∀ l ∈ lss.flatten, '\n' ∉ l ∧ '\r' ∉ l := by
    constructor
    · cases h1 with
      | nil => exact absurd rfl h0
      | cons h2 _ =>
        rw [List.flatten_cons]
        exact fun hn => (linesOf_noNewline h2).1 (List.append_eq_nil_iff.1 hn).1
    · intro l hl
      obtain ⟨ls', hm, hl'⟩ := List.mem_flatten.1 hl
      clear h0 hl
      induction h1 with
      | nil => cases hm
      | cons h2 _ ih =>
        rcases List.mem_cons.1 hm with rfl | hm
        · exact (linesOf_noNewline h2).2 l hl'
        · exact ih hm
  obtain ⟨T, hT⟩ := linesOf_join _ hp.1 hp.2
  exact ⟨T, hT, by rw [rereads_eq h1, configRead_eq, assignments_linesOf hT]⟩

theorem ReadLines.append {texts ls T ls'} (h : ReadLines texts ls) (hT : LinesOf T ls') :
    ReadLines (texts ++ [T]) (ls ++ ls') := by
  obtain ⟨lss, h1, rfl⟩ := h
  exact ⟨lss ++ [ls'], List.rel_append h1 (.cons hT .nil), by simp⟩

theorem vals_readLines {texts ls : List Str} (h0 : texts ≠ []) (h : ReadLines texts ls) {k v : Str} (hv : ValueIn ls k v) :
    vals (texts.foldl configRead []) k = some v := by
  obtain ⟨T, h1, h2⟩ := readLines_text h0 h
  rw [h2]
  exact (C38_value h1 k v).2 hv

theorem valid_readLines {texts ls : List Str} (h0 : texts ≠ []) (h : ReadLines texts ls) :
    checkAll (texts.foldl configRead []) true = [] ↔ ValidText ls := by
  obtain ⟨T, h1, h2⟩ := readLines_text h0 h
  rw [h2]
  exact C38_checkAll h1

/-! ### The daemon as a sequence -/

/-- The end of the last sync. -/
def lastEnd (first : Int) (acts : List DaemonAct) : Int := acts.foldl (fun t a => match a with
  | .sync _ ended => ended
  | .decay _ => t) first

theorem lastEnd_eq {first : Int} {acts : List DaemonAct} {t : Int} (h : LastEnd first acts t) : lastEnd first acts = t := by
  have no : ∀ (b : List DaemonAct) (x : Int), (∀ n' t', DaemonAct.sync n' t' ∉ b) → lastEnd x b = x := by
    intro b
    induction b with
    | nil => exact fun _ _ => rfl
    | cons a b ih =>
      intro x hx
      cases a with
      | sync n t => exact absurd List.mem_cons_self (hx n t)
      | decay e => exact ih x (fun n' t' hm => hx n' t' (List.mem_cons_of_mem _ hm))
  rcases h with ⟨a, n, b, rfl, hb⟩ | ⟨hb, rfl⟩
  · unfold lastEnd
    rw [List.foldl_append, List.foldl_cons]
    exact no b t hb
  · exact no _ _ hb

theorem rereadConfig_ok {raw raw' : Dict Str} {text : Option Str} (h : rereadConfig raw text = .ok raw') :
    ∃ T, text = some T ∧ raw' = configRead raw T ∧ checkAll raw' true = [] := by
  cases text with
  | none => cases h
  | some T =>
    unfold rereadConfig at h
    dsimp only at h
    split at h
    · next hc => cases h; exact ⟨T, rfl, rfl, hc⟩
    · cases h

theorem ev_read (raw : Dict Str) (last : Int) (text : Option Str) (es : List DaemonEvent) :
    daemonEvents raw last (.read text :: es) = match rereadConfig raw text with
      | .error e => ([], some e)
      | .ok raw => daemonEvents raw last es := by
  rw [daemonEvents]
  cases rereadConfig raw text <;> rfl

theorem ev_adjust (raw : Dict Str) (last : Int) (text : Option Str) (es : List DaemonEvent) :
    daemonEvents raw last (.adjust text :: es) = match rereadConfig raw text with
      | .error e => ([], some e)
      | .ok raw => match decayExp (halfLife ((vals raw "PriorityHalfLife".toList).getD [])) with
        | .error e => ([], some e)
        | .ok x => (.decay x :: (daemonEvents raw last es).1, (daemonEvents raw last es).2) := by
  rw [daemonEvents]
  cases rereadConfig raw text <;> rfl

theorem ev_check (raw : Dict Str) (last now ended : Int) (es : List DaemonEvent) :
    daemonEvents raw last (.check now ended :: es) = if last + syncInterval raw ≤ now then
      (.sync now ended :: (daemonEvents raw ended es).1, (daemonEvents raw ended es).2)
    else daemonEvents raw last es := by rw [daemonEvents]

theorem daemonEvents_append (a b : List DaemonEvent) : ∀ (raw : Dict Str) (last : Int),
    daemonEvents raw last (a ++ b) = match (daemonEvents raw last a).2 with
      | some e => ((daemonEvents raw last a).1, some e)
      | none =>
        ((daemonEvents raw last a).1 ++
          (daemonEvents ((textsOf a).foldl configRead raw) (lastEnd last (daemonEvents raw last a).1) b).1,
          (daemonEvents ((textsOf a).foldl configRead raw) (lastEnd last (daemonEvents raw last a).1) b).2) := by
  induction a with
  | nil => intro raw last; rfl
  | cons e a ih =>
    intro raw last
    rw [List.cons_append]
    cases e with
    | read text =>
      simp only [ev_read]
      cases hr : rereadConfig raw text with
      | error x => rfl
      | ok raw' =>
        obtain ⟨T, rfl, rfl, _⟩ := rereadConfig_ok hr
        exact ih _ _
    | adjust text =>
      simp only [ev_adjust]
      cases hr : rereadConfig raw text with
      | error x => rfl
      | ok raw' =>
        obtain ⟨T, rfl, rfl, _⟩ := rereadConfig_ok hr
        dsimp only
        cases decayExp (halfLife ((vals (configRead raw T) "PriorityHalfLife".toList).getD [])) with
        | error x => rfl
        | ok x =>
          dsimp only
          rw [ih]
          cases (daemonEvents (configRead raw T) last a).2 <;> rfl
    | check now ended =>
      simp only [ev_check]
      split
      · dsimp only
        rw [ih]
        cases (daemonEvents raw ended a).2 <;> rfl
      · exact ih _ _

theorem daemonEvents_valid (a : List DaemonEvent) : ∀ (raw : Dict Str) (last : Int), checkAll raw true = [] →
    (daemonEvents raw last a).2 = none → checkAll ((textsOf a).foldl configRead raw) true = [] := by
  induction a with
  | nil => exact fun _ _ h _ => h
  | cons e a ih =>
    intro raw last h0 h
    cases e with
    | read text =>
      rw [ev_read] at h
      cases hr : rereadConfig raw text with
      | error x => rw [hr] at h; cases h
      | ok raw' =>
        rw [hr] at h
        obtain ⟨T, rfl, rfl, hc⟩ := rereadConfig_ok hr
        exact ih _ _ hc h
    | adjust text =>
      rw [ev_adjust] at h
      cases hr : rereadConfig raw text with
      | error x => rw [hr] at h; cases h
      | ok raw' =>
        rw [hr] at h
        obtain ⟨T, rfl, rfl, hc⟩ := rereadConfig_ok hr
        dsimp only at h
        split at h
        · cases h
        · exact ih _ _ hc h
    | check now ended =>
      rw [ev_check] at h
      split at h
      · exact ih _ _ h0 h
      · exact ih _ _ h0 h

theorem daemonLife_valid {lastSync : Int} {T0 : Str} {before : List DaemonEvent}
    (alive : (daemonLife lastSync (some T0) before).2 = none) {ls : List Str} (hl : ReadLines (T0 :: textsOf before) ls) :
    ValidText ls := by
  rw [← valid_readLines (by simp) hl, List.foldl_cons]
  unfold daemonLife at alive
  rw [ev_read] at alive
  cases hr : rereadConfig [] (some T0) with
  | error x => rw [hr] at alive; cases alive
  | ok raw' =>
    rw [hr] at alive
    obtain ⟨T, h1, rfl, hc⟩ := rereadConfig_ok hr
    cases h1
    exact daemonEvents_valid before _ _ hc alive

theorem daemonLife_snoc {lastSync : Int} {T0 : Str} {before : List DaemonEvent}
    (alive : (daemonLife lastSync (some T0) before).2 = none) (e : DaemonEvent) :
    daemonLife lastSync (some T0) (before ++ [e]) =
      ((daemonLife lastSync (some T0) before).1 ++
        (daemonEvents ((T0 :: textsOf before).foldl configRead [])
          (lastEnd lastSync (daemonLife lastSync (some T0) before).1) [e]).1,
        (daemonEvents ((T0 :: textsOf before).foldl configRead [])
          (lastEnd lastSync (daemonLife lastSync (some T0) before).1) [e]).2) := by
  have := daemonEvents_append (.read (some T0) :: before) [e] [] lastSync
  unfold daemonLife at *
  rw [alive] at this
  exact this

/-! ### The theorems -/

/-- C104: as long as the daemon has not ended, a check starts a sync if and only if the number of minutes that
SyncInterval has in the lines read so far (its last value there, or 20) has passed since the end of the last sync that
the daemon started, or since the recorded last sync. -/
theorem C104_interval {lastSync : Int} {T0 : Str} {before : List DaemonEvent} {now ended : Int}
    (alive : (daemonLife lastSync (some T0) before).2 = none) {ls : List Str} (hl : ReadLines (T0 :: textsOf before) ls)
    {v : Str} (hv : ValueIn ls "SyncInterval".toList v) {t : Int}
    (ht : LastEnd lastSync (daemonLife lastSync (some T0) before).1 t) :
    daemonLife lastSync (some T0) (before ++ [.check now ended]) =
      ((daemonLife lastSync (some T0) before).1 ++
        (if t + (digitsValue v : Int) * 60000000 ≤ now then [.sync now ended] else []), none) := by
  rw [daemonLife_snoc alive, lastEnd_eq ht]
  have hi : syncInterval ((T0 :: textsOf before).foldl configRead []) = (digitsValue v : Int) * 60000000 := by
    unfold syncInterval
    rw [vals_readLines (by simp) hl hv, Option.getD_some, decimal_eq]
    omega
  rw [ev_check, hi]
  split <;> rfl

/-- C104: reading the config file again ends the daemon if and only if all the lines that it has read so far, taken as
one config file, have an error. Otherwise it does nothing. -/
theorem C104_read {lastSync : Int} {T0 : Str} {before : List DaemonEvent}
    (alive : (daemonLife lastSync (some T0) before).2 = none) {ls : List Str} (hl : ReadLines (T0 :: textsOf before) ls)
    {T : Str} {ls' : List Str} (hT : LinesOf T ls') :
    (ValidText (ls ++ ls') → daemonLife lastSync (some T0) (before ++ [.read (some T)]) =
      ((daemonLife lastSync (some T0) before).1, none)) ∧
    (¬ ValidText (ls ++ ls') → daemonLife lastSync (some T0) (before ++ [.read (some T)]) =
      ((daemonLife lastSync (some T0) before).1, some .parse)) := by
  have hc := valid_readLines (by simp) (hl.append hT)
  rw [List.foldl_append, List.foldl_cons, List.foldl_nil] at hc
  rw [← hc, daemonLife_snoc alive]
  rw [ev_read]
  unfold rereadConfig
  constructor
  · intro h
    dsimp only
    rw [if_pos h]
    simp [daemonEvents]
  · intro h
    dsimp only
    rw [if_neg h]
    simp

theorem lastAssigns_append {a b : List Str} {k v : Str} (h : LastAssigns (a ++ b) k v) :
    LastAssigns b k v ∨ LastAssigns a k v := by
  obtain ⟨l1, l, l2, h1, h2, h3⟩ := h
  rw [List.append_eq_append_iff] at h1
  rcases h1 with ⟨c, rfl, rfl⟩ | ⟨c, rfl, h1⟩
  · exact Or.inl ⟨c, l, l2, rfl, h2, h3⟩
  · cases c with
    | nil => exact Or.inl ⟨[], l, l2, by simpa using h1.symm, h2, h3⟩
    | cons x c =>
      simp only [List.cons_append, List.cons.injEq] at h1
      obtain ⟨rfl, rfl⟩ := h1
      exact Or.inr ⟨l1, _, c, rfl, h2, fun l' hl' => h3 l' (List.mem_append_left _ hl')⟩

theorem lastAssigns_right {a b : List Str} {k v : Str} (h : LastAssigns b k v) : LastAssigns (a ++ b) k v := by
  obtain ⟨l1, l, l2, rfl, h2, h3⟩ := h
  exact ⟨a ++ l1, l, l2, by simp, h2, h3⟩

/-- C104: a config file without errors does not end the daemon, and from then on the options it sets have the values it
gives them: the next check goes by its SyncInterval. -/
theorem C104_changed {lastSync : Int} {T0 : Str} {before : List DaemonEvent} {now ended : Int}
    (alive : (daemonLife lastSync (some T0) before).2 = none) {T : Str} {ls' : List Str} (hT : LinesOf T ls')
    (hok : ValidText ls') {v : Str} (hv : LastAssigns ls' "SyncInterval".toList v) {t : Int}
    (ht : LastEnd lastSync (daemonLife lastSync (some T0) before).1 t) :
    daemonLife lastSync (some T0) (before ++ [.read (some T), .check now ended]) =
      ((daemonLife lastSync (some T0) before).1 ++
        (if t + (digitsValue v : Int) * 60000000 ≤ now then [.sync now ended] else []), none) := by
  have hex : ∀ texts : List Str, ∃ lss, List.Forall₂ LinesOf texts lss := by
    intro texts
    induction texts with
    | nil => exact ⟨[], .nil⟩
    | cons S texts ih =>
      obtain ⟨ls1, h1⟩ := linesOf_exists S
      obtain ⟨lss, h2⟩ := ih
      exact ⟨ls1 :: lss, .cons h1 h2⟩
  obtain ⟨lss, hlss⟩ := hex (T0 :: textsOf before)
  have hl : ReadLines (T0 :: textsOf before) lss.flatten := ⟨lss, hlss, rfl⟩
  have hold := daemonLife_valid alive hl
  have hval : ValidText (lss.flatten ++ ls') := by
    refine ⟨fun k hk => ?_, fun k v h => ?_⟩
    · obtain ⟨l, h1, h2⟩ := hok.1 k hk
      exact ⟨l, List.mem_append_right _ h1, h2⟩
    · rcases lastAssigns_append h with h | h
      · exact hok.2 k v h
      · exact hold.2 k v h
  have h1 := (C104_read alive hl hT).1 hval
  have h2 : before ++ [.read (some T), .check now ended] = (before ++ [.read (some T)]) ++ [.check now ended] := by simp
  have htx : T0 :: textsOf (before ++ [.read (some T)]) = (T0 :: textsOf before) ++ [T] := by
    simp [textsOf, List.filterMap_append]
  rw [h2, C104_interval (ls := lss.flatten ++ ls') (v := v) (t := t) (by rw [h1]) (by rw [htx]; exact hl.append hT)
    (Or.inl (lastAssigns_right hv)) (by rw [h1]; exact ht), h1]

/-- C104: when the priorities are adjusted, the exponent is ten minutes divided by the number of hours that
PriorityHalfLife has in the lines read so far, including those of the file as it is now; with 0, and with an error in
these lines, the daemon ends. -/
theorem C104_adjust {lastSync : Int} {T0 : Str} {before : List DaemonEvent}
    (alive : (daemonLife lastSync (some T0) before).2 = none) {ls : List Str} (hl : ReadLines (T0 :: textsOf before) ls)
    {T : Str} {ls' : List Str} (hT : LinesOf T ls') {v : Str} (hv : ValueIn (ls ++ ls') "PriorityHalfLife".toList v) :
    (ValidText (ls ++ ls') → digitsValue v ≠ 0 → daemonLife lastSync (some T0) (before ++ [.adjust (some T)]) =
      ((daemonLife lastSync (some T0) before).1 ++ [.decay (600 / ((digitsValue v * 3600 : Nat) : Rat))], none)) ∧
    (ValidText (ls ++ ls') → digitsValue v = 0 → daemonLife lastSync (some T0) (before ++ [.adjust (some T)]) =
      ((daemonLife lastSync (some T0) before).1, some .zeroDiv)) ∧
    (¬ ValidText (ls ++ ls') → daemonLife lastSync (some T0) (before ++ [.adjust (some T)]) =
      ((daemonLife lastSync (some T0) before).1, some .parse)) := by
  have hrl := hl.append hT
  have hc := valid_readLines (by simp) hrl
  have hval := vals_readLines (by simp) hrl hv
  rw [List.foldl_append, List.foldl_cons, List.foldl_nil] at hc hval
  have hdig : ValidText (ls ++ ls') → halfLife v = digitsValue v * 3600 := by
    intro h
    apply halfLife_eq
    rcases hv with hv | ⟨_, hv⟩
    · have := (h.2 _ _ hv).2
      generalize hk : "PriorityHalfLife".toList = k at this
      cases this with
      | halfLife h => exact h
      | bool hb _ => subst hk; exact absurd hb (by decide)
      | localDir _ => exact absurd hk (by decide)
      | remoteDir _ => exact absurd hk (by decide)
      | limit _ => exact absurd hk (by decide)
      | interval _ => exact absurd hk (by decide)
      | cleanup _ => exact absurd hk (by decide)
    · generalize hk : "PriorityHalfLife".toList = k at hv
      cases hv with
      | halfLife => exact ⟨by decide, by decide⟩
      | interval => exact absurd hk (by decide)
      | trash => exact absurd hk (by decide)
      | cleanup => exact absurd hk (by decide)
      | inflate => exact absurd hk (by decide)
      | size => exact absurd hk (by decide)
  rw [daemonLife_snoc alive]
  rw [ev_adjust]
  unfold rereadConfig
  dsimp only
  refine ⟨fun h h0 => ?_, fun h h0 => ?_, fun h => ?_⟩
  · rw [if_pos (hc.2 h)]
    dsimp only
    rw [hval, Option.getD_some, hdig h]
    unfold decayExp
    rw [if_neg (by omega)]
    simp [daemonEvents]
  · rw [if_pos (hc.2 h)]
    dsimp only
    rw [hval, Option.getD_some, hdig h]
    unfold decayExp
    rw [if_pos (by omega)]
    simp
  · rw [if_neg (mt hc.1 h)]
    simp

/-- C104: a config file that cannot be opened ends the daemon, and a daemon that has ended does nothing more. -/
theorem C104_over (lastSync : Int) (T0 : Option Str) (before after : List DaemonEvent) :
    ((daemonLife lastSync T0 before).2 ≠ none → daemonLife lastSync T0 (before ++ after) = daemonLife lastSync T0 before) ∧
    ((daemonLife lastSync T0 before).2 = none →
      daemonLife lastSync T0 (before ++ .read none :: after) = ((daemonLife lastSync T0 before).1, some .parse)) := by
  have := fun b => daemonEvents_append (.read T0 :: before) b [] lastSync
  unfold daemonLife
  constructor
  · intro h
    have h1 := this after
    obtain ⟨e, he⟩ := Option.ne_none_iff_exists'.1 h
    rw [he] at h1
    rw [← List.cons_append, h1]
    dsimp only
    rw [← he]
  · intro h
    have h1 := this (.read none :: after)
    rw [h] at h1
    rw [← List.cons_append, h1]
    simp [daemonEvents, rereadConfig]

/-! ### Examples and the failures -/

def exDaemonText : Str := "LocalDir=/l\nRemoteDir=/r\nStorageLimit=1 GB\n".toList
def exDaemonText5 : Str := "LocalDir=/l\nRemoteDir=/r\nStorageLimit=1 GB\nSyncInterval=5\n".toList
def exDaemonNoDir : Str := "#LocalDir=/l\nRemoteDir=/r\nStorageLimit=1 GB\n".toList

/-- The daemon starts with the default of 20 minutes. The first sync is due at once. After ten minutes none is due; then
the user sets SyncInterval to 5 and the next check starts one. -/
def exDaemonEvents : List DaemonEvent :=
  [.check 2000000000 2001000000, .read (some exDaemonText), .adjust (some exDaemonText), .check 2601000000 2602000000]

theorem exDaemon_before : daemonLife 0 (some exDaemonText) exDaemonEvents =
    ([.sync 2000000000 2001000000, .decay (1 / 720)], none) := by decide +kernel

theorem exDaemon_last : LastEnd 0 (daemonLife 0 (some exDaemonText) exDaemonEvents).1 2001000000 := by
  rw [exDaemon_before]
  refine Or.inl ⟨[], 2000000000, [.decay (1 / 720)], rfl, ?_⟩
  intro n' t' h
  rw [List.mem_singleton] at h
  cases h

example : ∃ ls, LinesOf exDaemonText5 ls ∧ ValidText ls ∧ LastAssigns ls "SyncInterval".toList "5".toList ∧
    daemonLife 0 (some exDaemonText) (exDaemonEvents ++ [.read (some exDaemonText5), .check 2605000000 2606000000]) =
      ([.sync 2000000000 2001000000, .decay (1 / 720), .sync 2605000000 2606000000], none) := by
  obtain ⟨ls, hl⟩ := linesOf_exists exDaemonText5
  have hv : ValidText ls := (C38_checkAll hl).1 (by decide +kernel)
  have ha : LastAssigns ls "SyncInterval".toList "5".toList := (lastAssigns_iff hl _ _).1 (by decide +kernel)
  refine ⟨ls, hl, hv, ha, ?_⟩
  rw [C104_changed (by rw [exDaemon_before]) hl hv ha exDaemon_last, exDaemon_before]
  decide +kernel

/-- A half-life of an hour and one of 0. -/
example : daemonLife 0 (some exDaemonText) [.adjust (some (exDaemonText ++ "PriorityHalfLife=1".toList))] =
      ([.decay (1 / 6)], none) ∧
    daemonLife 0 (some exDaemonText) [.adjust (some (exDaemonText ++ "PriorityHalfLife=0".toList))] =
      ([], some .zeroDiv) := by decide +kernel

/-- The claim C104 in full: after the daemon has read a config file with an error, it starts no more syncs. -/
def C104Ends : Prop := ∀ (lastSync : Int) (T0 T : Str) (ls : List Str) (es : List DaemonEvent), LinesOf T ls →
  ¬ ValidText ls → (daemonLife lastSync (some T0) (.read (some T) :: es)).1 = []

/-- The user comments out a required option. The daemon does not notice and starts syncs, none of which does anything,
because the sync reads the file anew (`C100_refused`). -/
theorem C104_missing_fails : ¬ C104Ends ∧ ∀ (h : Host) (w : World), syncText h exDaemonNoDir w = (.error .parse, w) := by
  obtain ⟨ls, hl⟩ := linesOf_exists exDaemonNoDir
  have hv : ¬ ValidText ls := mt (C38_checkAll hl).2 (by decide +kernel)
  refine ⟨fun h => ?_, fun h w => C100_refused h hl hv w⟩
  have := h 0 exDaemonText exDaemonNoDir ls [.check 2000000000 2001000000] hl hv
  revert this
  decide +kernel

/-- The other claim C104 in full: an option that the config file does not set has its default. -/
def C104Default : Prop := ∀ (lastSync : Int) (T0 T : Str) (ls : List Str) (now ended : Int), LinesOf T ls →
  ValidText ls → (∀ l ∈ ls, ∀ v, ¬ Assigns l "SyncInterval".toList v) → lastSync ≤ now → now < lastSync + 20 * 60000000 →
  (daemonLife lastSync (some T0) [.read (some T), .check now ended]).1 = []

/-- See `C65_commented_fails`: after the line is removed, the daemon goes on with the interval of five minutes. -/
theorem C104_default_fails : ¬ C104Default := by
  obtain ⟨ls, hl⟩ := linesOf_exists exDaemonText
  have hv : ValidText ls := (C38_checkAll hl).1 (by decide +kernel)
  have hn : ∀ l ∈ ls, ∀ v, ¬ Assigns l "SyncInterval".toList v := by
    have := (C38_value hl "SyncInterval".toList "20".toList).1 (by decide +kernel)
    rcases this with h | h
    · exact absurd ((lastAssigns_iff hl _ _).2 h) (by decide +kernel)
    · exact h.1
  intro h
  have := h 0 exDaemonText5 exDaemonText ls 600000000 601000000 hl hv hn (by decide) (by decide)
  revert this
  decide +kernel

end Verif
