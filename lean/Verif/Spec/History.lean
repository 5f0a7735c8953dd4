import Verif.DBHistory
/-
Histories of database calls and what they leave known. `KnownL` and `KnownR`
do not refer to the tables.
-/
namespace Verif

/-- The effect of a call on the set of known paths. -/
def knownStepL (K : Path → Prop) (op : LOp) (p : Path) : Prop :=
  match op with
  | .add b _ _ _ => K p ∨ p ∈ b.map Prod.fst
  | .addInflated b _ => K p ∨ p ∈ b.map Prod.fst
  | .rm ps => K p ∧ ∀ q ∈ ps, ¬ q <+: p
  | .update .. => K p
  | .increment .. => K p
  | .adjust .. => K p

/-- The paths that were added and not removed since. -/
def KnownL (ops : List LOp) : Path → Prop := ops.foldl knownStepL (fun _ => False)

/-- `HistL h U C ops db`: the calls `ops`, made on a new profile database, raised
no exception and left it as `db`. Every call uses paths of `U`, adds no path
before its parent, and satisfies `C` (given the paths known before it). -/
inductive HistL (h : Str → Int) (U : Path → Prop) (C : (Path → Prop) → LOp → Prop) :
    List LOp → LocalDB → Prop
  | start : HistL h U C [] DB.empty
  | call {ops : List LOp} {db db' : LocalDB} {op : LOp} : HistL h U C ops db →
      (∀ p ∈ op.paths, U p) →
      (op.isAdd = true → ∀ p ∈ op.paths, p.dropLast ≠ [] →
        KnownL ops p.dropLast ∨ p.dropLast ∈ op.paths) →
      C (KnownL ops) op → LocalDB.step h db op = some db' → HistL h U C (ops ++ [op]) db'

/-- The calls of a history run without exception and give its database. -/
theorem HistL.run_eq {h : Str → Int} {U : Path → Prop} {C : (Path → Prop) → LOp → Prop}
    {ops : List LOp} {db : LocalDB} (H : HistL h U C ops db) :
    LocalDB.run h DB.empty ops = some db := by
  induction H with
  | start => rfl
  | call _ _ _ _ hs ih =>
    unfold LocalDB.run at ih ⊢
    rw [List.foldlM_append, ih]
    simp [hs]

/-- No restriction. -/
def AnyCall (_ : Path → Prop) (_ : LOp) : Prop := True

/-- `update_paths` and `increment` are only called with sets in which each path
that has known entries is accompanied by one of its entries (the program passes
whole subtrees or files). -/
def ProgramCall (K : Path → Prop) : LOp → Prop
  | .update ps _ _ _ => ∀ p ∈ ps, (∃ k, K k ∧ k.dropLast = p) → ∃ k ∈ ps, k.dropLast = p
  | .increment ps _ => ∀ p ∈ ps, (∃ k, K k ∧ k.dropLast = p) → ∃ k ∈ ps, k.dropLast = p
  | _ => True

/-- No call turns a directory into a file. -/
def NoFileMark (_ : Path → Prop) : LOp → Prop
  | .update _ d _ _ => d ≠ some false
  | _ => True

/-- The effect of a call on the set of known paths. -/
def knownStepR (K : Path → Prop) (op : ROp) (p : Path) : Prop :=
  match op with
  | .add b _ _ => K p ∨ p ∈ b.map Prod.fst
  | .rm ps => K p ∧ ∀ q ∈ ps, ¬ q <+: p
  | .update .. => K p

/-- The paths that were added and not removed since. -/
def KnownR (ops : List ROp) : Path → Prop := ops.foldl knownStepR (fun _ => False)

/-- The same for the remote database. -/
inductive HistR (h : Str → Int) (U : Path → Prop) (C : ROp → Prop) :
    List ROp → RemoteDB → Prop
  | start : HistR h U C [] DB.empty
  | call {ops : List ROp} {db : RemoteDB} {op : ROp} : HistR h U C ops db →
      (∀ p ∈ op.paths, U p) →
      (op.isAdd = true → ∀ p ∈ op.paths, p.dropLast ≠ [] →
        KnownR ops p.dropLast ∨ p.dropLast ∈ op.paths) →
      C op → HistR h U C (ops ++ [op]) (RemoteDB.step h db op)

/-- No call turns a directory into a file. -/
def NoFileMarkR : ROp → Prop
  | .update _ d _ => d ≠ some false
  | _ => True

/-! ### An example universe and history, used to show that hypotheses can be met -/

/-- A hash that separates short strings. -/
def exHash (s : Str) : Int := s.foldl (fun n c => n * 256 + c.toNat) 0

/-- `docs`, `docs/a`, `docs/b`, `x`. -/
def exPaths : List Path :=
  [["docs".toList], ["docs".toList, "a".toList], ["docs".toList, "b".toList], ["x".toList]]

theorem exUniv : Univ exHash (fun p => p ∈ exPaths) := by
  have h1 : ∀ p ∈ exPaths, p ≠ [] := by decide +kernel
  have h2 : ∀ p ∈ exPaths, ∀ n ∈ List.range (p.length + 1), p.take n ≠ [] → p.take n ∈ exPaths := by
    decide +kernel
  have h3 : ∀ p ∈ exPaths, ∀ q ∈ exPaths, exHash (toStr p) = exHash (toStr q) → p = q := by
    decide +kernel
  exact ⟨fun {p} hp => h1 p hp, fun {p q} hp h0 hq => by
      have := h2 p hp q.length (by have := hq.length_le; simp; omega)
      rw [← List.prefix_iff_eq_take.1 hq] at this
      exact this h0,
    fun {p q} hp hq he => h3 p hp q hq he⟩

/-- Add four paths, open a file, decay, remove one, add it again. -/
def exOps : List LOp :=
  [.add [(["docs".toList, "a".toList], false), (["docs".toList], true),
      (["docs".toList, "b".toList], false), (["x".toList], false)] 2 true (fun _ => []),
   .increment [["docs".toList, "a".toList], ["x".toList], ["x".toList]] 1,
   .adjust (1/2),
   .rm [["docs".toList, "b".toList]],
   .update [["docs".toList, "a".toList]] none none (some false),
   .addInflated [(["docs".toList, "b".toList], false)] (fun _ => [])]

/-- The database the history leaves. -/
def exDB : LocalDB := (LocalDB.run exHash DB.empty exOps).getD DB.empty

theorem exHist : ∃ db, HistL exHash (fun p => p ∈ exPaths)
    (fun K op => ProgramCall K op ∧ NoFileMark K op) exOps db := by
  have hK1 : KnownL (exOps.take 1) ["docs".toList] := by
    show False ∨ _
    decide +kernel
  have leaf : ∀ (K : Path → Prop), (∀ k, K k → k ∈ exPaths) → ∀ p ∈
      [["docs".toList, "a".toList], ["x".toList], ["x".toList]],
      (∃ k, K k ∧ k.dropLast = p) → ∃ k ∈ ([] : List Path), k.dropLast = p := by
    intro K hK p hp ⟨k, hk, hkp⟩
    exfalso
    have : ∀ k ∈ exPaths, ∀ p ∈ [["docs".toList, "a".toList], ["x".toList], ["x".toList]],
      k.dropLast ≠ p := by decide +kernel
    exact this k (hK k hk) p hp hkp
  have e0 : ∀ k, KnownL (exOps.take 1) k → k ∈ exPaths := by
    intro k hk
    have hk : False ∨ k ∈ [["docs".toList, "a".toList], ["docs".toList],
      ["docs".toList, "b".toList], ["x".toList]] := hk
    have all : ∀ k ∈ [["docs".toList, "a".toList], ["docs".toList],
      ["docs".toList, "b".toList], ["x".toList]], k ∈ exPaths := by decide +kernel
    exact all k (hk.resolve_left id)
  have h0 : HistL exHash (fun p => p ∈ exPaths) (fun K op => ProgramCall K op ∧ NoFileMark K op)
    [] DB.empty := HistL.start
  have h1 := HistL.call (op := exOps[0]) h0 (by decide +kernel)
    (fun _ => by
      have : ∀ p ∈ (exOps[0]).paths, p.dropLast ≠ [] → p.dropLast ∈ (exOps[0]).paths := by
        decide +kernel
      exact fun p hp h0 => Or.inr (this p hp h0))
    ⟨trivial, trivial⟩ rfl
  have h2 := HistL.call (op := exOps[1]) h1 (by decide +kernel) (by simp [exOps, LOp.isAdd])
    ⟨fun p hp hk => by
      obtain ⟨k, hk, _⟩ := leaf _ e0 p hp hk
      simp at hk, trivial⟩ rfl
  have h3 := HistL.call (op := exOps[2]) h2 (by decide +kernel) (by simp [exOps, LOp.isAdd])
    ⟨trivial, trivial⟩ rfl
  have h4 := HistL.call (op := exOps[3]) h3 (by decide +kernel) (by simp [exOps, LOp.isAdd])
    ⟨trivial, trivial⟩ rfl
  have h5 := HistL.call (op := exOps[4]) h4 (by decide +kernel) (by simp [exOps, LOp.isAdd])
    ⟨fun p hp hk => by
      obtain ⟨k, hk, hkp⟩ := hk
      obtain ⟨k', hk', _⟩ := leaf (KnownL (exOps.take 4))
        (fun k (hk : KnownL (exOps.take 1) k ∧ _) => e0 k hk.1) p
        (by have : p = _ := List.mem_singleton.1 hp; subst this; simp) ⟨k, hk, hkp⟩
      simp at hk', by simp [exOps, NoFileMark]⟩ rfl
  have fin : ∀ db5, HistL exHash (fun p => p ∈ exPaths)
      (fun K op => ProgramCall K op ∧ NoFileMark K op) (exOps.take 5) db5 →
      (LocalDB.step exHash db5 (exOps[5])).isSome = true → ∃ db, HistL exHash (fun p => p ∈ exPaths)
      (fun K op => ProgramCall K op ∧ NoFileMark K op) exOps db := by
    intro db5 h5 hs
    obtain ⟨d, hd⟩ := Option.isSome_iff_exists.1 hs
    exact ⟨d, HistL.call (op := exOps[5]) h5 (by decide +kernel)
      (fun _ p hp _ => by
        left
        have : p = ["docs".toList, "b".toList] := List.mem_singleton.1 hp
        subst this
        refine ⟨hK1, ?_⟩
        decide +kernel)
      ⟨trivial, trivial⟩ hd⟩
  exact fin _ h5 (by decide +kernel)

end Verif
