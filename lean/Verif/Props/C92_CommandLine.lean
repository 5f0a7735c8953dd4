import Verif.CommandLineOnly
/-
C92: A command line means what it says.
-/
namespace Verif.Props
open Argparse CommandLine Usage

/-- Every command line that can be read by the help pages and the usual conventions runs the command that it asks for,
with the options and operands that it gives. Not covered are command lines that end in `--`. -/
theorem C92_accepts_partial (digit : Char → Bool) (run : Command → Except Raised Unit) {line : List Str} {r : Command}
    {debug quiet : Bool} (h : Reads Plain False line r debug quiet) :
    (mainFn digit run line).ran = some r ∧ (mainFn digit run line).quiet = quiet ∧
      (mainFn digit run line).shown = none := by
  obtain ⟨ns, h1, h2, rfl, rfl⟩ := reads_parse (digit := digit) h
  unfold mainFn
  rw [h1]
  simp only [h2]
  split
  · exact ⟨rfl, rfl, rfl⟩
  · exact ⟨rfl, rfl, rfl⟩
  · split <;> exact ⟨rfl, rfl, rfl⟩

/-- A command is run only if the command line asks for it. Words that start with a dash count as operands here if they
have a space or look like a negative number, and `--` may be the last word. -/
theorem C92_only (digit : Char → Bool) (run : Command → Except Raised Unit) {line : List Str} {r : Command}
    (h : (mainFn digit run line).ran = some r) :
    ∃ debug, Reads (PlainOr digit) True line r debug (mainFn digit run line).quiet := by
  unfold mainFn at h ⊢
  cases hp : parseArgs digit line with
  | error e => rw [hp] at h; cases e <;> cases h
  | ok ns =>
    rw [hp] at h
    obtain ⟨r', hr, hreads⟩ := parse_reads hp
    simp only [hr] at h ⊢
    refine ⟨ns.debug, ?_⟩
    cases hrun : run r' with
    | ok u => simp only [hrun] at h ⊢; cases h; exact hreads
    | error e =>
      cases e with
      | other => simp only [hrun] at h ⊢; cases h; exact hreads
      | program =>
        simp only [hrun] at h ⊢
        cases hd : ns.debug <;> simp only [hd] at h ⊢ <;> cases h <;> rw [hd] at hreads <;> exact hreads

/-- A command line cannot be read in two ways. -/
theorem C92_unique {line : List Str} {r r' : Command} {debug debug' quiet quiet' : Bool}
    (h : Reads Plain False line r debug quiet) (h' : Reads Plain False line r' debug' quiet') :
    r = r' ∧ debug = debug' ∧ quiet = quiet' := by
  obtain ⟨ns, h1, h2, h3, h4⟩ := reads_parse (digit := fun _ => false) h
  obtain ⟨ns', h1', h2', h3', h4'⟩ := reads_parse (digit := fun _ => false) h'
  rw [h1] at h1'
  cases h1'
  rw [h2] at h2'
  cases h2'
  exact ⟨rfl, h3.symm.trans h3', h4.symm.trans h4'⟩

/-- `zielen --quiet reset p -k --` asks for something by the conventions, but it is refused. -/
theorem C92_dashes_fails : ∃ (line : List Str) (r : Command), Reads Plain True line r false true ∧
    ∀ digit run, digit 'k' = false → (mainFn digit run line).ran = none ∧ (mainFn digit run line).status = 1 := by
  refine ⟨[long .quiet, "reset".toList, "p".toList, ['-', 'k'], ['-', '-']], .reset "p".toList true false, ?_, ?_⟩
  · refine ⟨.reset, [long .quiet], ["p".toList, ['-', 'k'], ['-', '-']], [(.quiet, none)],
      [.operand "p".toList, .given (.keepRemote, none)], rfl, ?_, ?_, .reset, rfl, rfl, rfl, rfl⟩
    · refine .cons (os := [long .quiet]) (.flag ⟨by simp [offers], List.prefix_refl _, by decide, ?_⟩ rfl) .nil
      decide
    · refine .operand (.inl (by decide)) (.options (gs := [(.keepRemote, none)]) (os := [['-', 'k']]) ?_ (.dashes (ws := []) fun _ => trivial))
      exact .cluster (.last (by simp [offers]) rfl rfl)
  · intro digit run hd
    have hneg : negativeNumber digit ['-', 'k'] = false := by simp [negativeNumber, isNegative, hd]
    have hk : parseOptional digit topParser ['-', 'k'] = .ok (.opt none ['-', 'k'] none) := by
      show (if negativeNumber digit ['-', 'k'] = true then Except.ok Kind.arg
        else if ' ' ∈ ['-', 'k'] then .ok .arg else .ok (.opt none ['-', 'k'] none)) = _
      rw [hneg]
      rfl
    have hclass := classify_cons (digit := digit) (P := topParser) (w := long .quiet) (by decide) rfl
      (classify_cons (w := "reset".toList) (by decide) rfl (classify_cons (w := "p".toList) (by decide) rfl
        (classify_cons (w := ['-', 'k']) (by decide) hk (ws := [dd]) (r := [(dd, .dashes)]) rfl)))
    have : parseArgs digit [long .quiet, "reset".toList, "p".toList, ['-', 'k'], ['-', '-']] = .error .input := by
      unfold parseArgs parse parseKnown
      rw [show (['-', '-'] : Str) = dd from rfl, hclass]
      rfl
    unfold mainFn
    rw [this]
    exact ⟨rfl, rfl⟩

/-- A command line with most of the ways to write options: `--deb -q init --excl=f -at g -- -p`. -/
example : Reads Plain False ["--deb".toList, "-q".toList, "init".toList, "--excl=f".toList, "-at".toList, "g".toList,
    "--".toList, "-p".toList] (.init "-p".toList (some "f".toList) (some "g".toList) true) true true := by
  refine ⟨.init, ["--deb".toList, "-q".toList],
    ["--excl=f".toList, "-at".toList, "g".toList, "--".toList, "-p".toList], [(.debug, none), (.quiet, none)],
    [.given (.exclude, some "f".toList), .given (.addRemote, none), .given (.template, some "g".toList),
      .operand "-p".toList], rfl, ?_, ?_, ?_, rfl, rfl, rfl, rfl⟩
  · refine .cons (os := ["--deb".toList]) (gs := [(.debug, none)]) (.flag ?_ rfl)
      (.cons (os := ["-q".toList]) (gs := [(.quiet, none)]) (.cluster (.last (by simp [offers]) rfl rfl)) .nil)
    exact ⟨by simp [offers], by decide, by decide, by decide⟩
  · refine .options (os := ["--excl".toList ++ '=' :: "f".toList]) (gs := [(.exclude, some "f".toList)]) (.equals ?_ rfl)
      (.options (os := ["-at".toList, "g".toList]) (gs := [(.addRemote, none), (.template, some "g".toList)]) ?_
        (.dashes (ws := ["-p".toList]) (by simp)))
    · exact ⟨by simp [offers], by decide, by decide, by decide⟩
    · exact .cluster (.flag (by simp [offers]) rfl rfl (.next (by simp [offers]) rfl rfl (.inl (by decide))))
  · exact .init

example : (mainFn (fun _ => false) (fun _ => .ok ()) ["--deb".toList, "-q".toList, "init".toList, "--excl=f".toList,
    "-at".toList, "g".toList, "--".toList, "-p".toList]).ran =
      some (.init "-p".toList (some "f".toList) (some "g".toList) true) := by decide +kernel

end Verif.Props
