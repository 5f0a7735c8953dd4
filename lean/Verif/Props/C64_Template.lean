import Verif.Props.C35_Config
import Verif.Props.C38_Options
/-
C64: a profile that `init` makes from a template can be read.

`generate` checks the template with `check_empty=False` (zielen/profile.py:109-113), every later command checks the
config file with `check_empty=True` (zielen/profile.py:85-93).
-/
namespace Verif

/-- What `check_all` accepts. -/
theorem checkAll_eq_nil {d : Dict Str} (hd : d.Nodup) (b : Bool) : checkAll d b = [] ↔
    (∀ k ∈ requiredKeys, ∃ v, d.get k = some v) ∧
    ∀ k v, d.get k = some v → k ∈ allKeys ∧ ((b = true ∨ v ≠ []) → checkValue k v = none) := by
  unfold checkAll
  rw [List.append_eq_nil_iff, List.append_eq_nil_iff, List.map_eq_nil_iff, List.map_eq_nil_iff,
    List.filter_eq_nil_iff, List.filter_eq_nil_iff, List.filterMap_eq_nil_iff]
  simp only [decide_eq_true_eq, not_not]
  have hk : ∀ k, k ∈ d.keys ↔ ∃ v, d.get k = some v := by
    intro k
    constructor
    · intro h
      rcases Option.eq_none_or_eq_some (d.get k) with h1 | h1
      · exact absurd h (Dict.get_eq_none.1 h1)
      · exact h1
    · rintro ⟨v, h⟩
      apply Classical.byContradiction
      intro hn
      rw [Dict.get_eq_none.2 hn] at h
      cases h
  constructor
  · rintro ⟨⟨h1, h2⟩, h3⟩
    refine ⟨fun k hk' => (hk k).1 (h1 k hk'), fun k v hv => ⟨h2 k ((hk k).2 ⟨v, hv⟩), fun hb => ?_⟩⟩
    have := h3 _ ((Dict.get_eq_some hd).1 hv)
    rw [if_pos] at this
    · exact this
    · rcases hb with rfl | hb
      · rfl
      · cases b <;> simp [hb]
  · rintro ⟨h1, h2⟩
    refine ⟨⟨fun k hk' => (hk k).2 (h1 k hk'), fun k hk' => ?_⟩, ?_⟩
    · obtain ⟨v, hv⟩ := (hk k).1 hk'
      exact (h2 k v hv).1
    · rintro ⟨k, v⟩ he
      split
      · rename_i hb
        refine (h2 k v ((Dict.get_eq_some hd).2 he)).2 ?_
        cases b
        · right; simpa using hb
        · left; rfl
      · rfl

theorem get_promptAll (raw : Dict Str) (ans : Str → Str) (k : Str) :
    (promptAll raw ans).get k =
      if k ∈ requiredKeys ∧ (raw.get k = none ∨ raw.get k = some []) then some (ans k) else raw.get k := by
  unfold promptAll
  have h : ∀ (ks : List Str) (d : Dict Str), (ks.foldl (fun d k => d.set k (ans k)) d).get k =
      if k ∈ ks then some (ans k) else d.get k := by
    intro ks
    induction ks with
    | nil => intro d; simp
    | cons a ks ih =>
      intro d
      rw [List.foldl_cons, ih, Dict.get_set]
      by_cases h1 : k ∈ ks
      · simp [h1]
      · by_cases h2 : a = k
        · subst h2; simp
        · simp [h1, h2, Ne.symm h2]
  rw [h]
  simp only [List.mem_filter, decide_eq_true_eq]

/-- The numeric options. -/
def numericKeys : List Str := ["SyncInterval".toList, "PriorityHalfLife".toList, "TrashCleanupPeriod".toList]

theorem checkValue_empty {k : Str} (hk : k ∈ allKeys) (hr : k ∉ requiredKeys) :
    checkValue k [] = none ↔ k ∉ numericKeys := by
  revert hr
  revert k
  decide

/-- What the answers are: `prompt` asks until `check_value` accepts. -/
def GoodAnswers (ans : Str → Str) : Prop := ∀ k ∈ requiredKeys, checkValue k (ans k) = none ∧ OneLine (ans k)

/-- The values of the new config file: the template's own, or the answer if the template leaves a required option
empty. -/
theorem C64_values {T C : Str} {ls : List Str} (hl : LinesOf T ls) {ans : Str → Str} (ha : GoodAnswers ans)
    (h : templateConfig T ans = .ok C) (k v : Str) : (configRead [] C).get k = some v ↔
      (LastAssigns ls k v ∧ ¬ (k ∈ requiredKeys ∧ v = [])) ∨ (k ∈ requiredKeys ∧ LastAssigns ls k [] ∧ v = ans k) := by
  unfold templateConfig at h
  split at h
  · cases h
    rw [← lastAssigns_iff hl, ← lastAssigns_iff hl, C35_roundtrip, get_promptAll]
    · rcases Option.eq_none_or_eq_some ((configRead [] T).get k) with h1 | ⟨x, h1⟩
      · rw [h1]; simp
      · rw [h1]
        by_cases hk : k ∈ requiredKeys
        · by_cases hx : x = []
          · subst hx
            simp only [hk, Option.map_some, true_and]
            simp
            exact eq_comm
          · simp only [hk, Option.map_some, true_and]
            simp [hx]
            rintro rfl
            exact hx
        · simp [hk]
    · intro k' v' h'
      rw [get_promptAll] at h'
      split at h'
      · rename_i hc
        cases h'
        exact (ha k' hc.1).2
      · exact oneLine_configRead T k' v' h'
  · cases h

/-- The config file that `init` writes from an accepted template is accepted by the later commands exactly if the
template leaves no numeric option empty. -/
theorem C64_template_partial {T C : Str} {ls : List Str} (hl : LinesOf T ls) {ans : Str → Str} (ha : GoodAnswers ans)
    (h : templateConfig T ans = .ok C) :
    checkAll (configRead [] C) true = [] ↔ ∀ k ∈ numericKeys, ¬ LastAssigns ls k [] := by
  have hv := C64_values hl ha h
  have hT : checkAll (configRead [] T) false = [] := by
    unfold templateConfig at h
    split at h
    · assumption
    · cases h
  rw [checkAll_eq_nil (nodup_configRead (by simp [Dict.Nodup, Dict.keys]) T)] at hT
  obtain ⟨t1, t2⟩ := hT
  rw [checkAll_eq_nil (nodup_configRead (by simp [Dict.Nodup, Dict.keys]) C)]
  have hnr : ∀ k ∈ numericKeys, k ∉ requiredKeys ∧ k ∈ allKeys := by decide
  constructor
  · rintro ⟨_, h2⟩ k hk hl'
    obtain ⟨hr, hak⟩ := hnr k hk
    have := (h2 k [] ((hv k []).2 (Or.inl ⟨hl', fun h => hr h.1⟩))).2 (Or.inl rfl)
    exact (checkValue_empty hak hr).1 this hk
  · intro hn
    refine ⟨?_, ?_⟩
    · intro k hk
      obtain ⟨v, hkv⟩ := t1 k hk
      rw [lastAssigns_iff hl] at hkv
      by_cases h0 : v = []
      · subst h0
        exact ⟨ans k, (hv k _).2 (Or.inr ⟨hk, hkv, rfl⟩)⟩
      · exact ⟨v, (hv k v).2 (Or.inl ⟨hkv, fun h => h0 h.2⟩)⟩
    · intro k v hkv
      rcases (hv k v).1 hkv with ⟨h1, h2⟩ | ⟨h1, h2, rfl⟩
      · obtain ⟨t3, t4⟩ := t2 k v ((lastAssigns_iff hl k v).2 h1)
        refine ⟨t3, fun _ => ?_⟩
        by_cases h0 : v = []
        · subst h0
          exact (checkValue_empty t3 (fun h => h2 ⟨h, rfl⟩)).2 (fun hk => hn k hk h1)
        · exact t4 (Or.inr h0)
      · exact ⟨(t2 k [] ((lastAssigns_iff hl k []).2 h2)).1, fun _ => (ha k h1).1⟩

/-- Without a template, the new config file has the answers. -/
theorem C64_master {T : Str} {ls : List Str} (hl : LinesOf T ls) {ans : Str → Str} (ha : GoodAnswers ans) (k v : Str) :
    (configRead [] (masterConfig T ans)).get k = some v ↔
      (∃ v', LastAssigns ls k v') ∧ if k ∈ requiredKeys then v = ans k else LastAssigns ls k v := by
  unfold masterConfig
  rw [C35_roundtrip, get_promptAll]
  · simp only [← lastAssigns_iff hl, Dict.get_nil]
    rcases Option.eq_none_or_eq_some ((configRead [] T).get k) with h1 | ⟨x, h1⟩
    · rw [h1]; simp
    · rw [h1]
      by_cases hk : k ∈ requiredKeys
      · simp [hk, eq_comm]
      · simp [hk]
  · intro k' v' h'
    rw [get_promptAll] at h'
    split at h'
    · rename_i hc
      cases h'
      exact (ha k' hc.1).2
    · simp [Dict.get_nil] at h'

/-- The full claim C64. -/
def C64Claim : Prop := ∀ T ans C, GoodAnswers ans → templateConfig T ans = .ok C → checkAll (configRead [] C) true = []

def exAns (k : Str) : Str :=
  if k = "LocalDir".toList then "/l".toList else if k = "RemoteDir".toList then "/r".toList else "1 GB".toList

theorem exAns_good : GoodAnswers exAns := by
  unfold GoodAnswers
  decide +kernel

/-- A template with `SyncInterval=` is accepted, but the profile cannot be read. -/
theorem C64_empty_fails : ¬ C64Claim := by
  intro h
  have := h "LocalDir=\nRemoteDir=/r\nStorageLimit=\nSyncInterval=\n".toList exAns
    "LocalDir=/l\nRemoteDir=/r\nStorageLimit=1 GB\nSyncInterval=\n".toList exAns_good (by decide +kernel)
  revert this
  decide +kernel

/-- An accepted template with an empty required option and an empty boolean one. -/
example : templateConfig "LocalDir=\nRemoteDir=/r\nStorageLimit=2 GB\nUseTrash=\n".toList exAns =
    .ok "LocalDir=/l\nRemoteDir=/r\nStorageLimit=2 GB\nUseTrash=\n".toList ∧
    checkAll (configRead [] "LocalDir=/l\nRemoteDir=/r\nStorageLimit=2 GB\nUseTrash=\n".toList) true = [] := by
  decide +kernel

end Verif
