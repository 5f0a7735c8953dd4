import Verif.ConfigLemmas
import Verif.Spec.Config
/-
C35: config files round-trip.
-/
namespace Verif

/-- Writing a config file from a template and reading it back yields, for every
key of the template, the value that was set, or else the template's own; keys
that are not in the template have no value. -/
theorem C35_roundtrip (V : Dict Str) (T : Str)
    (hV : ∀ k v, V.get k = some v → OneLine v) (k : Str) :
    (configRead [] (configWrite V T)).get k =
      ((configRead [] T).get k).map (fun v => (V.get k).getD v) := by
  rw [configRead_eq, configRead_eq, assignments_configWrite hV, get_setAll, get_setAll,
    ← List.map_reverse, List.find?_map]
  have : ((fun e : Str × Str => decide (e.1 = k)) ∘ fun e : Str × Str =>
      (e.1, (V.get e.1).getD e.2)) = fun e : Str × Str => decide (e.1 = k) := rfl
  rw [this]
  cases h : (assignments T).reverse.find? (fun e => decide (e.1 = k)) with
  | none => simp [Dict.get_nil]
  | some e =>
    have := List.find?_some h
    simp only [decide_eq_true_eq] at this
    subst this
    rfl

/-- Writing once more changes no value: the written file is a template with the
same values. -/
theorem C35_stable (V : Dict Str) (T : Str) (hV : ∀ k v, V.get k = some v → OneLine v) (k : Str) :
    (configRead [] (configWrite V (configWrite V T))).get k =
      (configRead [] (configWrite V T)).get k := by
  rw [C35_roundtrip V _ hV, C35_roundtrip V T hV]
  cases (configRead [] T).get k with
  | none => rfl
  | some v =>
    cases V.get k <;> rfl

/-- Every value that is read from a config file is a single line without space around it. -/
theorem oneLine_configRead (T : Str) : ∀ k v, (configRead [] T).get k = some v → OneLine v := by
  intro k v h
  rw [configRead_eq, get_setAll] at h
  cases hf : (assignments T).reverse.find? (fun e => decide (e.1 = k)) with
  | none => rw [hf] at h; exact absurd h (by simp [Dict.get_nil])
  | some e =>
    rw [hf] at h
    have hm := List.mem_reverse.1 (List.mem_of_find?_eq_some hf)
    obtain ⟨l, hl, hp⟩ := List.mem_filterMap.1 hm
    simp only [Option.some.injEq] at h
    subst h
    rcases parseLine_cases l with h | ⟨a, b, hab, ha, hc, h⟩
    · rw [hp] at h; simp at h
    · rw [hp] at h
      simp only [Option.some.injEq] at h
      subst h
      refine ⟨stripped_strip b, ?_, ?_⟩
      · intro hn
        have hnb := mem_strip hn
        -- the only line end of a line is its last character
        obtain ⟨ls, t, h1, h2, h3⟩ := fileLines_shape (univNewlines T)
        rw [h1] at hl
        rcases List.mem_append.1 hl with hl | hl
        · obtain ⟨u, hu, hnu⟩ := h2 l hl
          rcases List.eq_nil_or_concat b with rfl | ⟨b', x, hb⟩
          · simp at hnb
          · rw [List.concat_eq_append] at hb
            have e : u ++ ['\n'] = (a ++ '=' :: b') ++ [x] := by rw [← hu, hab, hb]; simp
            have e1 := List.append_inj_left' e rfl
            have e2 : x = '\n' := by
              have := List.append_inj_right' e rfl; simpa using this.symm
            have hnb' : '\n' ∉ b' := by
              intro hm; apply hnu; rw [e1]; simp [hm]
            subst hb
            rw [e2] at hn
            -- `strip` removes a final line end
            have hlast := (stripped_iff.1 (stripped_strip (b' ++ ['\n']))).2
            have hpre : ∃ r, ((b' ++ ['\n']).dropWhile pySpace) = strip (b' ++ ['\n']) ++ r := by
              have hsuf := List.dropWhile_suffix
                (l := ((b' ++ ['\n']).dropWhile pySpace).reverse) pySpace
              have hp := List.reverse_prefix.2 hsuf
              rw [List.reverse_reverse] at hp
              obtain ⟨r, hr⟩ := hp
              exact ⟨r, hr.symm⟩
            obtain ⟨r, hr⟩ := hpre
            obtain ⟨q, hq⟩ := List.dropWhile_suffix (l := b' ++ ['\n']) pySpace
            rw [hr] at hq
            rcases List.eq_nil_or_concat r with rfl | ⟨r', y, hr'⟩
            · rw [List.append_nil] at hq
              have : (strip (b' ++ ['\n'])).getLast? = some '\n' := by
                have h1 := congrArg List.getLast? hq
                rw [List.getLast?_append, List.getLast?_append] at h1
                cases hs : (strip (b' ++ ['\n'])).getLast? with
                | none =>
                  rw [List.getLast?_eq_none_iff] at hs
                  rw [hs] at hn; simp at hn
                | some z => rw [hs] at h1; simpa using h1
              have := hlast _ this
              simp [pySpace] at this
            · rw [List.concat_eq_append] at hr'
              rw [hr'] at hq
              have : (q ++ (strip (b' ++ ['\n']) ++ r')) ++ [y] = b' ++ ['\n'] := by
                simpa [List.append_assoc] using hq
              have h1 := List.append_inj_left' this rfl
              apply hnb'
              rw [← h1]; simp [hn]
        · by_cases ht : t = []
          · simp [ht] at hl
          · rw [if_neg ht, List.mem_singleton] at hl
            subst hl
            apply h3; rw [hab]; simp [hnb]
      · intro hr
        apply not_mem_univNewlines T
        apply mem_fileLines hl
        rw [hab]; simp [mem_strip hr]

/-- A config file that was read and is written over itself keeps every value. -/
theorem C35_rewrite (T : Str) (k : Str) :
    (configRead [] (configWrite (configRead [] T) T)).get k = (configRead [] T).get k := by
  rw [C35_roundtrip _ _ (oneLine_configRead T)]
  cases h : (configRead [] T).get k with
  | none => rfl
  | some v => rfl

/-- A template with a comment, a value to keep, one to replace and one set twice. -/
def exTemplate : Str := "# x=1\r\n LocalDir = /a b \nStorageLimit=\n#c\nLocalDir=/z".toList

example : configWrite [("StorageLimit".toList, "1 GB".toList), ("Nope".toList, "2".toList)] exTemplate =
    "# x=1\n LocalDir = /a b \nStorageLimit=1 GB\n#c\nLocalDir=/z".toList := by decide +kernel

example : configRead [] (configWrite [("StorageLimit".toList, "1 GB".toList)] exTemplate) =
    [("LocalDir".toList, "/z".toList), ("StorageLimit".toList, "1 GB".toList)] := by decide +kernel

example : OneLine "1 GB".toList := by decide +kernel

/-- The hypothesis on the values is needed: a value with a line end is cut. -/
theorem C35_linebreak : (configRead [] (configWrite [("A".toList, "1\n2".toList)] "A=".toList)).get
    "A".toList = some "1".toList := by decide +kernel

end Verif
