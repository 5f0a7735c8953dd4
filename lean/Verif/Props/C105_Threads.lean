import Verif.DaemonThreads
import Verif.Props.C104_Spacing
/-
C105: the thread of the daemon that starts the syncs while the other one reads the config file.
-/
namespace Verif

/-- What is used of Python's `int`: numbers in ASCII digits, and that the empty text is none. -/
structure PyInt (int : Str → Option Int) : Prop where
  digits : ∀ v, Digits v → int v = some (digitsValue v : Int)
  empty : int [] = none

/-- The lines that the main thread has read. -/
def linesIn (es : List ThreadStep) : List Str := es.filterMap (fun e => match e with
  | .line l => some l
  | _ => none)

/-- What the main thread does. -/
def mainOf (es : List ThreadStep) : List ThreadStep := es.filter (fun e => match e with
  | .check _ _ => false
  | _ => true)

/-- In `es` the main thread reads files with these contents one after the other, perhaps not yet to the end, and checks
each of them when it has read it. The other thread may make its checks at any time. -/
def Reads (texts : List Str) (es : List ThreadStep) : Prop :=
  ∃ lss, List.Forall₂ LinesOf texts lss ∧
    mainOf es <+: (lss.map (fun ls => ls.map ThreadStep.line ++ [.checkAll])).flatten

/-- The end of the last sync of `acts`, or `first` if there is none. -/
def EndOfLast (first : Int) (acts : List (Int × Int)) (t : Int) : Prop :=
  (acts = [] ∧ t = first) ∨ ∃ a n, acts = a ++ [(n, t)]

/-- No two lines set the option. -/
def SetOnce (ls : List Str) (k : Str) : Prop :=
  ∀ l1 a l2 b l3 v v', ls = l1 ++ a :: l2 ++ b :: l3 → Assigns a k v → ¬ Assigns b k v'

/-! ### The options that the threads see -/

theorem foldl_readLine (ls : List Str) : ∀ raw, ls.foldl readLine raw = setAll raw (ls.filterMap parseLine) := by
  induction ls with
  | nil => exact fun _ => rfl
  | cons l ls ih =>
    intro raw
    rw [List.foldl_cons, ih]
    unfold readLine
    cases h : parseLine l with
    | none => rw [List.filterMap_cons_none h]
    | some e => rw [List.filterMap_cons_some h]; rfl

theorem runThreads_snoc (int : Str → Option Int) (lastSync : Int) (text : Str) (es : List ThreadStep) (e : ThreadStep) :
    runThreads int lastSync text (es ++ [e]) = (runThreads int lastSync text es).step int e := by
  unfold runThreads
  rw [List.foldl_append]
  rfl

theorem step_over {int : Str → Option Int} {s : Threads} (e : ThreadStep) (h : s.over ≠ none) : s.step int e = s := by
  unfold Threads.step
  rw [if_pos h]

theorem over_before {int : Str → Option Int} {s : Threads} {e : ThreadStep} (h : (s.step int e).over = none) :
    s.over = none := Classical.byContradiction fun hn => by rw [step_over e hn] at h; exact hn h

theorem linesIn_snoc (es : List ThreadStep) (e : ThreadStep) : linesIn (es ++ [e]) = linesIn es ++ linesIn [e] := by
  unfold linesIn
  rw [List.filterMap_append]

theorem runThreads_raw (int : Str → Option Int) (lastSync : Int) (text : Str) (es : List ThreadStep)
    (h : (runThreads int lastSync text es).over = none) :
    (runThreads int lastSync text es).raw = (linesIn es).foldl readLine (configRead [] text) := by
  induction es using List.reverseRecOn with
  | nil => rfl
  | append_singleton es e ih =>
    rw [runThreads_snoc] at h ⊢
    have h0 := over_before h
    have h1 := ih h0
    rw [linesIn_snoc, List.foldl_append, ← h1]
    unfold Threads.step
    rw [if_neg (by rw [h0]; simp)]
    cases e with
    | line l => rfl
    | checkAll => dsimp only; split <;> rfl
    | check now ended =>
      dsimp only
      split
      · rfl
      · split
        · rfl
        · split <;> rfl

theorem mem_linesIn {es : List ThreadStep} {l : Str} : l ∈ linesIn es ↔ ThreadStep.line l ∈ es := by
  unfold linesIn
  rw [List.mem_filterMap]
  constructor
  · rintro ⟨e, he, h⟩
    cases e <;> simp at h
    subst h
    exact he
  · exact fun h => ⟨_, h, rfl⟩

/-- Each line comes from one of the files. -/
theorem Reads.line {texts : List Str} {es : List ThreadStep} (h : Reads texts es) {l : Str} (hl : l ∈ linesIn es) :
    ∃ T ∈ texts, ∃ ls, LinesOf T ls ∧ l ∈ ls := by
  obtain ⟨lss, h1, h2⟩ := h
  have hm : ThreadStep.line l ∈ mainOf es := List.mem_filter.2 ⟨mem_linesIn.1 hl, rfl⟩
  obtain ⟨x, hx, hx'⟩ := List.mem_flatten.1 (h2.subset hm)
  obtain ⟨ls, hls, rfl⟩ := List.mem_map.1 hx
  obtain ⟨T, hT, hTl⟩ := forall2_mem h1 hls
  refine ⟨T, hT, ls, hTl, ?_⟩
  rw [List.mem_append, List.mem_singleton] at hx'
  rcases hx' with hx' | hx'
  · obtain ⟨l', h3, h4⟩ := List.mem_map.1 hx'
    cases h4
    exact h3
  · cases hx'

/-- The options that the threads see are those of a text with all the lines read so far. -/
theorem raw_threads {int : Str → Option Int} {lastSync : Int} {T0 : Str} {ls0 : List Str} (h0 : LinesOf T0 ls0)
    {texts : List Str} {es : List ThreadStep} (hr : Reads texts es) (alive : (runThreads int lastSync T0 es).over = none) :
    ∃ T, LinesOf T (ls0 ++ linesIn es) ∧ (runThreads int lastSync T0 es).raw = configRead [] T := by
  have hp : ∀ l ∈ ls0 ++ linesIn es, '\n' ∉ l ∧ '\r' ∉ l := by
    intro l hl
    rcases List.mem_append.1 hl with hl | hl
    · exact (linesOf_noNewline h0).2 l hl
    · obtain ⟨T, _, ls, h1, h2⟩ := hr.line hl
      exact (linesOf_noNewline h1).2 l h2
  obtain ⟨T, hT⟩ := linesOf_join (ls0 ++ linesIn es)
    (fun hn => (linesOf_noNewline h0).1 (List.append_eq_nil_iff.1 hn).1) hp
  refine ⟨T, hT, ?_⟩
  rw [runThreads_raw _ _ _ _ alive, foldl_readLine, configRead_eq, assignments_linesOf h0]
  rw [configRead_eq, assignments_linesOf hT, List.filterMap_append]
  unfold setAll
  rw [List.foldl_append]

/-- The interval that the second thread sees: that of the last line read so far that sets it. -/
theorem vals_threads {int : Str → Option Int} {lastSync : Int} {T0 : Str} {ls0 : List Str} (h0 : LinesOf T0 ls0)
    {texts : List Str} {es : List ThreadStep} (hr : Reads texts es) (alive : (runThreads int lastSync T0 es).over = none)
    (k v : Str) : vals (runThreads int lastSync T0 es).raw k = some v ↔ ValueIn (ls0 ++ linesIn es) k v := by
  obtain ⟨T, hT, e⟩ := raw_threads h0 hr alive
  rw [e]
  exact C38_value hT k v

theorem valueIn_exists {T : Str} {ls : List Str} (h : LinesOf T ls) : ∃ v, ValueIn ls "SyncInterval".toList v := by
  have hsome : ∃ v, vals (configRead [] T) "SyncInterval".toList = some v := by
    unfold vals
    split
    · exact ⟨_, rfl⟩
    · exact ⟨"20".toList, by decide⟩
  obtain ⟨v, hv⟩ := hsome
  exact ⟨v, (C38_value h _ _).1 hv⟩

/-- `last_attempt` is the end of the last sync. -/
theorem last_end (int : Str → Option Int) (lastSync : Int) (text : Str) (es : List ThreadStep) {t : Int}
    (h : (runThreads int lastSync text es).last = some t) :
    EndOfLast lastSync (runThreads int lastSync text es).started t := by
  induction es using List.reverseRecOn generalizing t with
  | nil => cases h; exact Or.inl ⟨rfl, rfl⟩
  | append_singleton es e ih =>
    rw [runThreads_snoc] at h ⊢
    generalize runThreads int lastSync text es = s at *
    unfold Threads.step at h ⊢
    split at h
    · next ho => rw [if_pos ho]; exact ih h
    · next ho =>
      rw [if_neg ho]
      cases e with
      | line l => exact ih h
      | checkAll =>
        dsimp only at h ⊢
        split
        · next hc => rw [if_pos hc] at h; exact ih h
        · next hc => rw [if_neg hc] at h; exact ih h
      | check now ended =>
        dsimp only at h ⊢
        cases hl : s.last with
        | none => simp only [hl] at h; cases h
        | some u =>
          simp only [hl] at h ⊢
          cases hi : int ((vals s.raw "SyncInterval".toList).getD []) with
          | none => simp only [hi] at h; cases h
          | some i =>
            simp only [hi] at h ⊢
            split
            · next hle =>
              rw [if_pos hle] at h
              cases h
              exact Or.inr ⟨_, _, rfl⟩
            · next hle =>
              rw [if_neg hle, hl] at h
              exact ih (hl.trans h)

theorem endOfLast_unique {first : Int} {acts : List (Int × Int)} {t t' : Int} (h : EndOfLast first acts t)
    (h' : EndOfLast first acts t') : t = t' := by
  rcases h with ⟨rfl, rfl⟩ | ⟨a, n, rfl⟩
  · rcases h' with ⟨_, rfl⟩ | ⟨a, n, h⟩
    · rfl
    · simp at h
  · rcases h' with ⟨h, _⟩ | ⟨b, k, h⟩
    · simp at h
    · have := (List.append_inj' h rfl).2
      simp at this
      exact this.2

/-! ### The theorems -/

/-- C105: what a check does, for all interleavings. As long as the daemon has not ended and the second thread has not
either, a check starts a sync if and only if the number of minutes that SyncInterval has in the lines read so far, be it in the
middle of a file, has passed since the end of the last sync; if the value is not a number the thread ends. -/
theorem C105_check {int : Str → Option Int} {lastSync : Int} {T0 : Str} {ls0 : List Str} (h0 : LinesOf T0 ls0)
    {texts : List Str} {before : List ThreadStep} (hr : Reads texts before)
    (alive : (runThreads int lastSync T0 before).over = none) (goes : (runThreads int lastSync T0 before).last ≠ none)
    {v : Str} (hv : ValueIn (ls0 ++ linesIn before) "SyncInterval".toList v) {t : Int}
    (ht : EndOfLast lastSync (runThreads int lastSync T0 before).started t) (now ended : Int) :
    (int v = none → (runThreads int lastSync T0 (before ++ [.check now ended])).last = none ∧
      (runThreads int lastSync T0 (before ++ [.check now ended])).started = (runThreads int lastSync T0 before).started) ∧
    ∀ i, int v = some i → (runThreads int lastSync T0 (before ++ [.check now ended])).last ≠ none ∧
      (runThreads int lastSync T0 (before ++ [.check now ended])).started = (runThreads int lastSync T0 before).started ++
        (if t + i * 60000000 ≤ now then [(now, ended)] else []) := by
  have hval := (vals_threads h0 hr alive _ v).2 hv
  obtain ⟨u, hu⟩ := Option.ne_none_iff_exists'.1 goes
  have := endOfLast_unique (last_end _ _ _ _ hu) ht
  subst this
  rw [runThreads_snoc]
  generalize runThreads int lastSync T0 before = s at *
  unfold Threads.step
  rw [if_neg (by rw [alive]; simp)]
  simp only [hu, hval, Option.getD_some]
  constructor
  · intro hi
    simp only [hi]
    exact ⟨trivial, trivial⟩
  · intro i hi
    simp only [hi]
    have e : i * 60 * 1000000 = i * 60000000 := by omega
    rw [e]
    split
    · exact ⟨by simp, rfl⟩
    · exact ⟨by rw [hu]; simp, by simp⟩

/-- C105: what ends the daemon, for all interleavings: only the check of the options after a file has been read, and
this if and only if all the lines read so far together, from the first file on, are not the lines of a valid file. What
the other thread does never ends it. -/
theorem C105_over {int : Str → Option Int} {lastSync : Int} {T0 : Str} {ls0 : List Str} (h0 : LinesOf T0 ls0)
    {texts : List Str} {before : List ThreadStep} (hr : Reads texts before)
    (alive : (runThreads int lastSync T0 before).over = none) :
    ((runThreads int lastSync T0 (before ++ [.checkAll])).over = none ↔ ValidText (ls0 ++ linesIn before)) ∧
    (∀ l, (runThreads int lastSync T0 (before ++ [.line l])).over = none) ∧
    ∀ now ended, (runThreads int lastSync T0 (before ++ [.check now ended])).over = none := by
  obtain ⟨T, hT, e⟩ := raw_threads h0 hr alive
  have hc := C38_checkAll hT
  rw [← e] at hc
  simp only [runThreads_snoc]
  generalize runThreads int lastSync T0 before = s at *
  unfold Threads.step
  simp only [alive, ne_eq, not_true_eq_false, if_false]
  refine ⟨?_, ?_, fun now ended => ?_⟩
  · unfold ValidText
    rw [← hc]
    split
    · next h => exact ⟨fun _ => h, fun _ => alive⟩
    · next h => exact ⟨fun h' => (by cases h'), fun h' => absurd h' h⟩
  · exact fun _ => trivial
  · split
    · exact alive
    · split
      · trivial
      · split
        · trivial
        · exact alive

/-- C105: for all interleavings, the syncs are at least `m` minutes apart if no line that sets SyncInterval has a smaller
number and the default is not smaller. Values that are not numbers, and errors in the files, do no harm in this respect. -/
theorem C105_spacing {int : Str → Option Int} (hint : PyInt int) {lastSync : Int} {T0 : Str} {ls0 : List Str}
    (h0 : LinesOf T0 ls0) {texts : List Str} {es : List ThreadStep} (hr : Reads texts es) {m : Nat} (h20 : m ≤ 20)
    (hm : ∀ l ∈ ls0 ++ linesIn es, ∀ v i, Assigns l "SyncInterval".toList v → int v = some i → (m : Int) ≤ i)
    {A B : List (Int × Int)} {a b t : Int} (h : (runThreads int lastSync T0 es).started = A ++ (a, b) :: B)
    (ht : EndOfLast lastSync A t) : t + (m : Int) * 60000000 ≤ a := by
  induction es using List.reverseRecOn generalizing A B a b t with
  | nil => cases A <;> cases h
  | append_singleton es e ih =>
    have hr' : Reads texts es := by
      obtain ⟨lss, h1, h2⟩ := hr
      refine ⟨lss, h1, List.IsPrefix.trans ?_ h2⟩
      unfold mainOf
      rw [List.filter_append]
      exact List.prefix_append _ _
    have hm' : ∀ l ∈ ls0 ++ linesIn es, ∀ v i, Assigns l "SyncInterval".toList v → int v = some i → (m : Int) ≤ i := by
      intro l hl
      refine hm l ?_
      rw [linesIn_snoc, ← List.append_assoc]
      exact List.mem_append_left _ hl
    have old : ∀ A a b B t, (runThreads int lastSync T0 es).started = A ++ (a, b) :: B → EndOfLast lastSync A t →
        t + (m : Int) * 60000000 ≤ a := fun A a b B t h ht => ih hr' hm' h ht
    by_cases ho : (runThreads int lastSync T0 es).over = none
    · cases e with
      | line l =>
        refine old A a b B t ?_ ht
        rw [← h, runThreads_snoc]
        unfold Threads.step
        rw [if_neg (by rw [ho]; simp)]
      | checkAll =>
        refine old A a b B t ?_ ht
        rw [← h, runThreads_snoc]
        unfold Threads.step
        rw [if_neg (by rw [ho]; simp)]
        dsimp only
        split <;> rfl
      | check now ended =>
        by_cases hg : (runThreads int lastSync T0 es).last = none
        · refine old A a b B t ?_ ht
          rw [← h, runThreads_snoc]
          unfold Threads.step
          rw [if_neg (by rw [ho]; simp)]
          simp only [hg]
        · obtain ⟨u, hu⟩ := Option.ne_none_iff_exists'.1 hg
          have hp : ∀ l ∈ ls0 ++ linesIn es, '\n' ∉ l ∧ '\r' ∉ l := by
            intro l hl
            rcases List.mem_append.1 hl with hl | hl
            · exact (linesOf_noNewline h0).2 l hl
            · obtain ⟨T, _, ls, h1, h2⟩ := hr'.line hl
              exact (linesOf_noNewline h1).2 l h2
          obtain ⟨T, hT⟩ := linesOf_join (ls0 ++ linesIn es)
            (fun hn => (linesOf_noNewline h0).1 (List.append_eq_nil_iff.1 hn).1) hp
          obtain ⟨v, hv⟩ := valueIn_exists hT
          have hc := C105_check h0 hr' ho hg hv (last_end _ _ _ _ hu) now ended
          cases hi : int v with
          | none => exact old A a b B t (by rw [← h, (hc.1 hi).2]) ht
          | some i =>
            have h1 := (hc.2 i hi).2
            rw [h] at h1
            split at h1
            · next hle =>
              rcases List.eq_nil_or_concat B with rfl | ⟨B', x, rfl⟩
              · obtain ⟨h2, h3⟩ := List.append_inj' h1 rfl
                cases h3
                subst h2
                have := endOfLast_unique ht (last_end _ _ _ _ hu)
                subst this
                have hmi : (m : Int) ≤ i := by
                  rcases hv with ⟨l1, l, l2, he, ha, _⟩ | ⟨_, hd⟩
                  · exact hm' l (by rw [he]; simp) v i ha hi
                  · have : v = "20".toList := by
                      generalize hk : "SyncInterval".toList = k at hd
                      cases hd with
                      | interval => rfl
                      | halfLife => exact absurd hk (by decide)
                      | trash => exact absurd hk (by decide)
                      | cleanup => exact absurd hk (by decide)
                      | inflate => exact absurd hk (by decide)
                      | size => exact absurd hk (by decide)
                    rw [this, hint.digits _ ⟨by decide, by decide⟩] at hi
                    cases hi
                    have h5 : digitsValue "20".toList = 20 := by decide
                    rw [h5]
                    omega
                omega
              · rw [List.concat_eq_append, ← List.cons_append, ← List.append_assoc] at h1
                exact old A a b B' t (List.append_inj' h1 rfl).1.symm ht
            · rw [List.append_nil] at h1
              exact old A a b B t h1.symm ht
    · refine old A a b B t ?_ ht
      rw [← h, runThreads_snoc, step_over _ ho]

theorem Reads.before {texts : List Str} {es : List ThreadStep} {e : ThreadStep} (hr : Reads texts (es ++ [e])) :
    Reads texts es := by
  obtain ⟨lss, h1, h2⟩ := hr
  refine ⟨lss, h1, List.IsPrefix.trans ?_ h2⟩
  unfold mainOf
  rw [List.filter_append]
  exact List.prefix_append _ _

theorem lastAssigns_split {ls ls' : List Str} {k v : Str} (h : LastAssigns (ls ++ ls') k v) :
    (∃ l ∈ ls', Assigns l k v) ∨ LastAssigns ls k v := by
  obtain ⟨l1, l, l2, e, ha, hn⟩ := h
  rcases List.append_eq_append_iff.1 e with ⟨c, _, h2⟩ | ⟨c, h1, h2⟩
  · exact Or.inl ⟨l, by rw [h2]; simp, ha⟩
  · cases c with
    | nil => exact Or.inl ⟨l, by rw [List.nil_append] at h2; rw [← h2]; simp, ha⟩
    | cons x c =>
      rw [List.cons_append, List.cons.injEq] at h2
      obtain ⟨rfl, h2⟩ := h2
      exact Or.inr ⟨l1, l, c, h1, ha, fun l' hl' => hn l' (by rw [h2]; simp [hl'])⟩

theorem digits_of_last {ls : List Str} (hv : ValidText ls) {v : Str} (h : LastAssigns ls "SyncInterval".toList v) :
    Digits v := by
  have := (hv.2 _ _ h).2
  generalize hk : "SyncInterval".toList = k at this
  cases this with
  | interval h => exact h
  | bool hb _ => subst hk; exact absurd hb (by decide)
  | localDir _ => exact absurd hk (by decide)
  | remoteDir _ => exact absurd hk (by decide)
  | limit _ => exact absurd hk (by decide)
  | halfLife _ => exact absurd hk (by decide)
  | cleanup _ => exact absurd hk (by decide)

/-- The value that the second thread sees is a number, if the files are valid and set the interval once. -/
theorem digits_seen {ls0 : List Str} (hv0 : ValidText ls0) {texts : List Str} {es : List ThreadStep} (hr : Reads texts es)
    (hok : ∀ T ∈ texts, ∀ ls, LinesOf T ls → ValidText ls ∧ SetOnce ls "SyncInterval".toList) {v : Str}
    (hv : ValueIn (ls0 ++ linesIn es) "SyncInterval".toList v) : Digits v := by
  rcases hv with h | ⟨_, hd⟩
  · rcases lastAssigns_split h with ⟨l, hl, ha⟩ | h
    · obtain ⟨T, hT, ls, hTl, hls⟩ := hr.line hl
      obtain ⟨h1, h2⟩ := hok T hT ls hTl
      obtain ⟨x, y, rfl⟩ := List.append_of_mem hls
      refine digits_of_last h1 ⟨x, l, y, rfl, ha, fun l' hl' v' ha' => ?_⟩
      obtain ⟨y1, y2, rfl⟩ := List.append_of_mem hl'
      exact h2 x l y1 l' y2 v v' (by simp) ha ha'
    · exact digits_of_last hv0 h
  · generalize hk : "SyncInterval".toList = k at hd
    cases hd with
    | interval => exact ⟨by decide, by decide⟩
    | halfLife => exact absurd hk (by decide)
    | trash => exact absurd hk (by decide)
    | cleanup => exact absurd hk (by decide)
    | inflate => exact absurd hk (by decide)
    | size => exact absurd hk (by decide)

theorem value_seen {T0 : Str} {ls0 : List Str} (h0 : LinesOf T0 ls0) {texts : List Str} {es : List ThreadStep}
    (hr : Reads texts es) : ∃ v, ValueIn (ls0 ++ linesIn es) "SyncInterval".toList v := by
  have hp : ∀ l ∈ ls0 ++ linesIn es, '\n' ∉ l ∧ '\r' ∉ l := by
    intro l hl
    rcases List.mem_append.1 hl with hl | hl
    · exact (linesOf_noNewline h0).2 l hl
    · obtain ⟨T, _, ls, h1, h2⟩ := hr.line hl
      exact (linesOf_noNewline h1).2 l h2
  obtain ⟨T, hT⟩ := linesOf_join (ls0 ++ linesIn es)
    (fun hn => (linesOf_noNewline h0).1 (List.append_eq_nil_iff.1 hn).1) hp
  exact valueIn_exists hT

theorem goes_on {int : Str → Option Int} (hint : PyInt int) {lastSync : Int} {T0 : Str} {ls0 : List Str}
    (h0 : LinesOf T0 ls0) (hv0 : ValidText ls0) {texts : List Str} {es : List ThreadStep} (hr : Reads texts es)
    (hok : ∀ T ∈ texts, ∀ ls, LinesOf T ls → ValidText ls ∧ SetOnce ls "SyncInterval".toList) :
    (runThreads int lastSync T0 es).last ≠ none := by
  induction es using List.reverseRecOn with
  | nil => exact fun h => by cases h
  | append_singleton es e ih =>
    have hl := ih hr.before
    by_cases ho : (runThreads int lastSync T0 es).over = none
    · cases e with
      | line l =>
        rw [runThreads_snoc]
        unfold Threads.step
        rw [if_neg (by rw [ho]; simp)]
        exact hl
      | checkAll =>
        rw [runThreads_snoc]
        unfold Threads.step
        rw [if_neg (by rw [ho]; simp)]
        dsimp only
        split <;> exact hl
      | check now ended =>
        obtain ⟨v, hv⟩ := value_seen h0 hr.before
        obtain ⟨u, hu⟩ := Option.ne_none_iff_exists'.1 hl
        exact ((C105_check h0 hr.before ho hl hv (last_end _ _ _ _ hu) now ended).2 _
          (hint.digits v (digits_seen hv0 hr.before hok hv))).1
    · rw [runThreads_snoc, step_over _ ho]
      exact hl

/-- C105: if all files that the daemon reads are valid and each sets SyncInterval at most once, then for all interleavings
every check starts a sync if and only if the number of minutes has passed that SyncInterval has in the lines read so far,
which is its value in one of the files or the default. What is missing in comparison with C105: files that set it twice,
see `C105_twice_fails`. -/
theorem C105_goes_on_partial {int : Str → Option Int} (hint : PyInt int) {lastSync : Int} {T0 : Str} {ls0 : List Str}
    (h0 : LinesOf T0 ls0) (hv0 : ValidText ls0) {texts : List Str} {before : List ThreadStep} (hr : Reads texts before)
    (hok : ∀ T ∈ texts, ∀ ls, LinesOf T ls → ValidText ls ∧ SetOnce ls "SyncInterval".toList)
    (alive : (runThreads int lastSync T0 before).over = none) {t : Int}
    (ht : EndOfLast lastSync (runThreads int lastSync T0 before).started t) (now ended : Int) :
    ∃ v, ValueIn (ls0 ++ linesIn before) "SyncInterval".toList v ∧ Digits v ∧
      (runThreads int lastSync T0 (before ++ [.check now ended])).started = (runThreads int lastSync T0 before).started ++
        (if t + (digitsValue v : Int) * 60000000 ≤ now then [(now, ended)] else []) := by
  obtain ⟨v, hv⟩ := value_seen h0 hr
  have hd := digits_seen hv0 hr hok hv
  exact ⟨v, hv, hd, ((C105_check h0 hr alive (goes_on hint h0 hv0 hr hok) hv ht now ended).2 _ (hint.digits v hd)).2⟩

/-- When the second thread has ended, no sync is ever started again. -/
theorem C105_gone {int : Str → Option Int} {lastSync : Int} {T0 : Str} {es : List ThreadStep}
    (h : (runThreads int lastSync T0 es).last = none) (more : List ThreadStep) :
    (runThreads int lastSync T0 (es ++ more)).last = none ∧
    (runThreads int lastSync T0 (es ++ more)).started = (runThreads int lastSync T0 es).started := by
  induction more using List.reverseRecOn with
  | nil => rw [List.append_nil]; exact ⟨h, rfl⟩
  | append_singleton more e ih =>
    rw [← List.append_assoc, runThreads_snoc]
    obtain ⟨h1, h2⟩ := ih
    generalize runThreads int lastSync T0 (es ++ more) = s at *
    rw [← h2]
    unfold Threads.step
    split
    · exact ⟨h1, rfl⟩
    · cases e with
      | line l => exact ⟨h1, rfl⟩
      | checkAll => dsimp only; split <;> exact ⟨h1, rfl⟩
      | check now ended => simp only [h1]; exact ⟨trivial, trivial⟩

/-! ### Examples -/

/-- `int` for texts of ASCII digits. -/
def exInt (v : Str) : Option Int := if v ≠ [] ∧ v.all isDigit then some (digitsValue v) else none

theorem exInt_ok : PyInt exInt where
  digits v h := by
    have h2 : v.all isDigit = true := by
      rw [List.all_eq_true]
      intro c hc
      have := h.2 c hc
      simp only [List.mem_cons, List.not_mem_nil, or_false] at this
      rcases this with rfl | rfl | rfl | rfl | rfl | rfl | rfl | rfl | rfl | rfl <;> decide
    unfold exInt
    rw [if_pos ⟨h.1, h2⟩]
  empty := rfl

/-- A file that sets SyncInterval to nothing first, and to five minutes at its end. -/
def exTwice : Str := "LocalDir=/l\nSyncInterval=\nRemoteDir=/r\nStorageLimit=1 GB\nSyncInterval=5\n".toList

def exTwiceLines : List Str := ["LocalDir=/l".toList, "SyncInterval=".toList, "RemoteDir=/r".toList,
  "StorageLimit=1 GB".toList, "SyncInterval=5".toList, []]

/-- The lines of a text are determined by it. -/
theorem linesOf_unique {T : Str} {ls ls' : List Str} (h : LinesOf T ls) (h' : LinesOf T ls') : ls = ls' := by
  have take : ∀ l sep t : Str, '\n' ∉ l → '\r' ∉ l →
      (sep = ['\n'] ∨ sep = ['\r', '\n'] ∨ (sep = ['\r'] ∧ t.head? ≠ some '\n')) →
      (l ++ sep ++ t).takeWhile (fun c => decide (c ≠ '\n' ∧ c ≠ '\r')) = l := by
    intro l sep t h1 h2 h3
    rw [List.append_assoc, List.takeWhile_append_of_pos]
    · rcases h3 with rfl | rfl | ⟨rfl, _⟩ <;> simp
    · intro c hc
      simp only [decide_eq_true_eq]
      exact ⟨fun e => h1 (e ▸ hc), fun e => h2 (e ▸ hc)⟩
  induction h generalizing ls' with
  | @last l h1 h2 =>
    generalize hT : l = T at h'
    cases h' with
    | last _ _ => rfl
    | @cons l' sep t ls' h3 h4 h5 _ =>
      exfalso
      rcases h5 with rfl | rfl | ⟨rfl, _⟩
      · exact h1 (by rw [hT]; simp)
      · exact h1 (by rw [hT]; simp)
      · exact h2 (by rw [hT]; simp)
  | @cons l sep t ls h1 h2 h3 _ ih =>
    generalize hT : l ++ sep ++ t = T at h'
    cases h' with
    | last h4 h5 =>
      exfalso
      rcases h3 with rfl | rfl | ⟨rfl, _⟩
      · exact h4 (by rw [← hT]; simp)
      · exact h4 (by rw [← hT]; simp)
      · exact h5 (by rw [← hT]; simp)
    | @cons l' sep' t' ls' h4 h5 h6 h7 =>
      have e : l = l' := by rw [← take l sep t h1 h2 h3, hT, take l' sep' t' h4 h5 h6]
      subst e
      rw [List.append_assoc, List.append_assoc, List.append_cancel_left_eq] at hT
      have : t = t' := by
        rcases h3 with rfl | rfl | ⟨rfl, h3⟩ <;> rcases h6 with rfl | rfl | ⟨rfl, h6⟩ <;> simp at hT
        · exact hT
        · exact hT
        · exact absurd (by rw [← hT]; rfl) h6
        · exact absurd (by rw [hT]; rfl) h3
        · exact hT
      subst this
      rw [ih h7]

theorem exTwice_lines : LinesOf exTwice exTwiceLines :=
  .cons (l := "LocalDir=/l".toList) (sep := ['\n'])
    (t := "SyncInterval=\nRemoteDir=/r\nStorageLimit=1 GB\nSyncInterval=5\n".toList) (by decide) (by decide) (Or.inl rfl)
    (.cons (l := "SyncInterval=".toList) (sep := ['\n']) (t := "RemoteDir=/r\nStorageLimit=1 GB\nSyncInterval=5\n".toList)
      (by decide) (by decide) (Or.inl rfl)
      (.cons (l := "RemoteDir=/r".toList) (sep := ['\n']) (t := "StorageLimit=1 GB\nSyncInterval=5\n".toList)
        (by decide) (by decide) (Or.inl rfl)
        (.cons (l := "StorageLimit=1 GB".toList) (sep := ['\n']) (t := "SyncInterval=5\n".toList)
          (by decide) (by decide) (Or.inl rfl)
          (.cons (l := "SyncInterval=5".toList) (sep := ['\n']) (t := []) (by decide) (by decide) (Or.inl rfl)
            (.last (by decide) (by decide))))))

/-- The file of `exDaemonText5` line by line. -/
def exOnceLines : List Str := ["LocalDir=/l".toList, "RemoteDir=/r".toList, "StorageLimit=1 GB".toList,
  "SyncInterval=5".toList, []]

theorem exOnce_lines : LinesOf exDaemonText5 exOnceLines :=
  .cons (l := "LocalDir=/l".toList) (sep := ['\n']) (t := "RemoteDir=/r\nStorageLimit=1 GB\nSyncInterval=5\n".toList)
    (by decide) (by decide) (Or.inl rfl)
    (.cons (l := "RemoteDir=/r".toList) (sep := ['\n']) (t := "StorageLimit=1 GB\nSyncInterval=5\n".toList)
      (by decide) (by decide) (Or.inl rfl)
      (.cons (l := "StorageLimit=1 GB".toList) (sep := ['\n']) (t := "SyncInterval=5\n".toList)
        (by decide) (by decide) (Or.inl rfl)
        (.cons (l := "SyncInterval=5".toList) (sep := ['\n']) (t := []) (by decide) (by decide) (Or.inl rfl)
          (.last (by decide) (by decide)))))

theorem setOnce_of {ls : List Str} {k : Str} (h : ((ls.filterMap parseLine).map Prod.fst).count k ≤ 1) : SetOnce ls k := by
  intro l1 a l2 b l3 v v' e ha hb
  subst e
  rw [List.filterMap_append, List.filterMap_append, List.filterMap_cons_some (assigns_iff.1 ha),
    List.filterMap_cons_some (assigns_iff.1 hb)] at h
  simp only [List.map_append, List.map_cons, List.count_append, List.count_cons_self] at h
  omega

/-- A check in the middle of the first read, where the interval is still 20 minutes; one after the line with the new
interval, before the file has been checked. -/
def exSetOnce : List ThreadStep :=
  [.line "LocalDir=/l".toList, .line "RemoteDir=/r".toList, .check 600000000 601000000,
    .line "StorageLimit=1 GB".toList, .line "SyncInterval=5".toList, .check 602000000 603000000, .line [], .checkAll]

theorem exOnce_reads : Reads [exDaemonText5] exSetOnce :=
  ⟨[exOnceLines], .cons exOnce_lines .nil, by decide⟩

theorem exOnce_run : (runThreads exInt 0 exDaemonText exSetOnce).over = none ∧
    (runThreads exInt 0 exDaemonText exSetOnce).started = [(602000000, 603000000)] := by decide +kernel

/-- The next check starts a sync if five minutes have passed. -/
example (now ended : Int) : ∃ v, Digits v ∧
    (runThreads exInt 0 exDaemonText (exSetOnce ++ [.check now ended])).started = [(602000000, 603000000)] ++
        (if 603000000 + (digitsValue v : Int) * 60000000 ≤ now then [(now, ended)] else []) := by
  obtain ⟨ls, hl⟩ := linesOf_exists exDaemonText
  have hv : ValidText ls := (C38_checkAll hl).1 (by decide +kernel)
  obtain ⟨v, _, h1, h2⟩ := C105_goes_on_partial exInt_ok hl hv (lastSync := 0) exOnce_reads (fun T hT ls' hl' => by
    rw [List.mem_singleton] at hT
    subst hT
    have := linesOf_unique hl' exOnce_lines
    subst this
    exact ⟨(C38_checkAll exOnce_lines).1 (by decide +kernel), setOnce_of (by decide +kernel)⟩) exOnce_run.1
    (t := 603000000) (Or.inr ⟨[], 602000000, by rw [exOnce_run.2]; rfl⟩) now ended
  exact ⟨v, h1, by rw [h2, exOnce_run.2]⟩

example : (0 : Int) + (5 : Nat) * 60000000 ≤ 602000000 := by
  obtain ⟨ls, hl⟩ := linesOf_exists exDaemonText
  refine C105_spacing exInt_ok hl (lastSync := 0) exOnce_reads (by omega) ?_ (A := []) (B := []) (b := 603000000)
    (by rw [exOnce_run.2]; rfl) (Or.inl ⟨rfl, rfl⟩)
  intro l hm v i ha hi
  have h1 : ∀ p ∈ assignments exDaemonText ++ (linesIn exSetOnce).filterMap parseLine, p.1 = "SyncInterval".toList →
      ∀ i ∈ exInt p.2, (5 : Nat) ≤ i := by decide +kernel
  refine h1 ("SyncInterval".toList, v) ?_ rfl i hi
  rw [assignments_linesOf hl, ← List.filterMap_append]
  exact List.mem_filterMap.2 ⟨l, hm, assigns_iff.1 ha⟩

/-! ### What does not hold -/

/-- The claim C105 in full: if all files are valid, a check starts a sync when the interval has passed that the lines read
so far give. -/
def C105GoesOn : Prop := ∀ (int : Str → Option Int), PyInt int → ∀ (lastSync : Int) (T0 : Str) (ls0 : List Str)
  (texts : List Str) (before : List ThreadStep) (t now ended : Int) (v : Str), LinesOf T0 ls0 → ValidText ls0 →
  Reads texts before → (∀ T ∈ texts, ∀ ls, LinesOf T ls → ValidText ls) →
  (runThreads int lastSync T0 before).over = none → EndOfLast lastSync (runThreads int lastSync T0 before).started t →
  ValueIn (ls0 ++ linesIn before) "SyncInterval".toList v → Digits v → t + (digitsValue v : Int) * 60000000 ≤ now →
  (now, ended) ∈ (runThreads int lastSync T0 (before ++ [.check now ended])).started

/-- The check between the two lines that set SyncInterval. -/
def exTwiceSteps : List ThreadStep :=
  [.line "LocalDir=/l".toList, .line "SyncInterval=".toList, .check 600000000 601000000, .line "RemoteDir=/r".toList,
    .line "StorageLimit=1 GB".toList, .line "SyncInterval=5".toList, .line [], .checkAll]

theorem exTwice_reads : Reads [exTwice] exTwiceSteps :=
  ⟨[exTwiceLines], .cons exTwice_lines .nil, by decide⟩

theorem exTwice_run : (runThreads exInt 0 exDaemonText exTwiceSteps).over = none ∧
    (runThreads exInt 0 exDaemonText exTwiceSteps).last = none ∧
    (runThreads exInt 0 exDaemonText exTwiceSteps).started = [] := by decide +kernel

/-- C105 fails for a valid file that sets SyncInterval twice, first to nothing: a check at the wrong moment ends the thread
that starts the syncs, while the daemon goes on and no sync is ever started again. -/
theorem C105_twice_fails : ¬ C105GoesOn ∧ (runThreads exInt 0 exDaemonText exTwiceSteps).over = none ∧
    ∀ more, (runThreads exInt 0 exDaemonText (exTwiceSteps ++ more)).started = [] := by
  refine ⟨?_, exTwice_run.1, fun more => by rw [(C105_gone exTwice_run.2.1 more).2, exTwice_run.2.2]⟩
  intro h
  obtain ⟨ls, hl⟩ := linesOf_exists exDaemonText
  have hv : ValidText ls := (C38_checkAll hl).1 (by decide +kernel)
  have := h exInt exInt_ok 0 exDaemonText ls [exTwice] exTwiceSteps 0 90000000000 90001000000 "5".toList hl hv exTwice_reads
    (fun T hT ls' hl' => by
      rw [List.mem_singleton] at hT
      subst hT
      exact (C38_checkAll hl').1 (by decide +kernel))
    exTwice_run.1 (Or.inl ⟨exTwice_run.2.2, rfl⟩) ?_ ⟨by decide, by decide⟩ (by decide)
  · rw [(C105_gone exTwice_run.2.1 _).2, exTwice_run.2.2] at this
    cases this
  · refine Or.inl ⟨ls ++ ["LocalDir=/l".toList, "SyncInterval=".toList, "RemoteDir=/r".toList, "StorageLimit=1 GB".toList],
      "SyncInterval=5".toList, [[]], ?_, assigns_iff.2 (by decide +kernel), ?_⟩
    · rw [List.append_assoc]; rfl
    · intro l' hl' v' ha
      rw [List.mem_singleton] at hl'
      subst hl'
      have := assigns_iff.1 ha
      rw [show parseLine [] = none by decide +kernel] at this
      cases this

/-- A file with one line, whose option is unknown, ends the daemon when it has been read. -/
example : ¬ ValidText (exOnceLines ++ ["Foo=1".toList]) ∧
    (runThreads exInt 0 exDaemonText5 ([.line "Foo=1".toList, .check 5 6] ++ [.checkAll])).over ≠ none := by
  have hr : Reads ["Foo=1".toList] [.line "Foo=1".toList, .check 5 6] :=
    ⟨[["Foo=1".toList]], .cons (.last (by decide) (by decide)) .nil, ⟨[.checkAll], by decide +kernel⟩⟩
  have hn : ¬ ValidText (exOnceLines ++ ["Foo=1".toList]) := by
    intro h
    have := (h.2 "Foo".toList "1".toList ⟨exOnceLines, "Foo=1".toList, [], rfl, assigns_iff.2 (by decide +kernel), by simp⟩).1
    revert this
    decide +kernel
  exact ⟨hn, fun h => hn ((C105_over exOnce_lines hr (by decide +kernel)).1.1 h)⟩

end Verif
