import Verif.Props.C105_Threads
/-
C104: the daemon reads the config file while it is being saved.
-/
namespace Verif

/-- C104: the daemon goes on if it reads the first lines of a valid file that sets no option twice, because the rest has not
been written yet. What is missing: files that set an option twice, and a file of which a part of a line has been written,
see `C104_saving_fails`. -/
theorem C104_saving_partial {lastSync : Int} {T0 : Str} {before : List DaemonEvent}
    (alive : (daemonLife lastSync (some T0) before).2 = none) {ls : List Str} (hl : ReadLines (T0 :: textsOf before) ls)
    {written rest : List Str} (hv : ValidText (written ++ rest)) (once : ∀ k, SetOnce (written ++ rest) k) {T : Str}
    (hT : LinesOf T written) :
    daemonLife lastSync (some T0) (before ++ [.read (some T)]) = ((daemonLife lastSync (some T0) before).1, none) := by
  refine (C104_read alive hl hT).1 ?_
  have hv0 := daemonLife_valid alive hl
  refine ⟨fun k hk => ?_, fun k v h => ?_⟩
  · obtain ⟨l, h1, h2⟩ := hv0.1 k hk
    exact ⟨l, List.mem_append_left _ h1, h2⟩
  · rcases lastAssigns_split h with ⟨l, hm, ha⟩ | h
    · obtain ⟨x, y, rfl⟩ := List.append_of_mem hm
      refine hv.2 k v ⟨x, l, y ++ rest, by simp, ha, fun l' hl' v' ha' => ?_⟩
      obtain ⟨y1, y2, e⟩ := List.append_of_mem hl'
      exact once k x l y1 l' y2 v v' (by rw [List.append_assoc, List.cons_append, e]; simp) ha ha'
    · exact hv0.2 k v h

/-- The claim in full: a daemon that reads a valid file while it is being saved goes on. -/
def C104Saving : Prop := ∀ (lastSync : Int) (T0 T T' : Str) (ls0 ls : List Str), LinesOf T0 ls0 → ValidText ls0 →
  LinesOf T ls → ValidText ls → (∀ k, SetOnce ls k) → T' <+: T →
  (daemonLife lastSync (some T0) [.read (some T')]).2 = none

/-- It is false: of the last line, `StorageLimit=1 GB`, only `StorageLimit=1` has been written. The daemon ends, although
the config file was and will be valid. -/
theorem C104_saving_fails : ¬ C104Saving := by
  intro h
  have hv : ValidText exOnceLines := (C38_checkAll exOnce_lines).1 (by decide +kernel)
  have once : ∀ k, SetOnce exOnceLines k := fun k => setOnce_of (by
    have : ((exOnceLines.filterMap parseLine).map Prod.fst).Nodup := by decide +kernel
    exact List.nodup_iff_count_le_one.1 this k)
  have := h 0 exDaemonText5 exDaemonText5 "LocalDir=/l\nRemoteDir=/r\nStorageLimit=1".toList exOnceLines exOnceLines
    exOnce_lines hv exOnce_lines hv once (by decide +kernel)
  revert this
  decide +kernel

/-- Two lines of the file have been written. -/
example : daemonLife 0 (some exDaemonText) (exDaemonEvents ++ [.read (some "LocalDir=/l\nRemoteDir=/r".toList)]) =
    ([.sync 2000000000 2001000000, .decay (1 / 720)], none) := by
  obtain ⟨lss, hls⟩ := linesOf_all (exDaemonText :: textsOf exDaemonEvents)
  refine (C104_saving_partial (by rw [exDaemon_before]) (T := "LocalDir=/l\nRemoteDir=/r".toList) ⟨lss, hls, rfl⟩ (written := ["LocalDir=/l".toList, "RemoteDir=/r".toList])
    (rest := ["StorageLimit=1 GB".toList, "SyncInterval=5".toList, []]) ((C38_checkAll exOnce_lines).1 (by decide +kernel))
    (fun k => setOnce_of (by
      have : (((["LocalDir=/l".toList, "RemoteDir=/r".toList] ++ ["StorageLimit=1 GB".toList, "SyncInterval=5".toList, []] :
        List Str).filterMap parseLine).map Prod.fst).Nodup := by decide +kernel
      exact List.nodup_iff_count_le_one.1 this k))
    (.cons (l := "LocalDir=/l".toList) (sep := ['\n']) (t := "RemoteDir=/r".toList) (by decide) (by decide) (Or.inl rfl)
      (.last (by decide) (by decide)))).trans ?_
  rw [exDaemon_before]

end Verif
