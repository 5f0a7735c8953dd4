import Verif.CommandLinePages
/-
C94: The exit status and the messages tell how the command ended.
-/
namespace Verif.Props
open Argparse CommandLine Usage

/-- Status 0 means that the command has been run without an error, or that the program has only printed a page that
some word on the command line asks for. -/
theorem C94_zero (digit : Char → Bool) (run : Command → Except Raised Unit) {line : List Str}
    (h : (mainFn digit run line).status = 0) :
    (∃ r, (mainFn digit run line).ran = some r ∧ run r = .ok () ∧ (mainFn digit run line).shown = none) ∨
      ((mainFn digit run line).ran = none ∧
        ∃ page, AsksFor line page ∧ ∀ g, (mainFn digit run line).shown = some g → g = page) := by
  unfold mainFn at h ⊢
  cases hp : parseArgs digit line with
  | error e =>
    cases e with
    | input => rw [hp] at h; cases h
    | exit p => exact .inr ⟨rfl, parse_exit hp⟩
  | ok ns =>
    rw [hp] at h
    obtain ⟨r, hr, -⟩ := parse_reads hp
    simp only [hr] at h ⊢
    cases hrun : run r with
    | ok u => exact .inl ⟨r, rfl, hrun, rfl⟩
    | error e =>
      rw [hrun] at h
      cases e with
      | other => cases h
      | program => cases hd : ns.debug <;> rw [hd] at h <;> cases h

/-- There is an error message or a stack trace, and not both, exactly if the status is not 0; then it is 1. -/
theorem C94_reported (digit : Char → Bool) (run : Command → Except Raised Unit) (line : List Str) :
    let x := mainFn digit run line
    (x.status = 0 ∧ x.message = false ∧ x.trace = false) ∨ (x.status = 1 ∧ x.message = !x.trace) := by
  intro x
  have hx : x = mainFn digit run line := rfl
  clear_value x
  unfold mainFn at hx
  cases hp : parseArgs digit line with
  | error e =>
    rw [hp] at hx
    cases e <;> subst hx
    · exact .inr ⟨rfl, rfl⟩
    · exact .inl ⟨rfl, rfl, rfl⟩
  | ok ns =>
    rw [hp] at hx
    obtain ⟨r, hr, -⟩ := parse_reads hp
    simp only [hr] at hx
    cases hrun : run r with
    | ok u => rw [hrun] at hx; subst hx; exact .inl ⟨rfl, rfl, rfl⟩
    | error e =>
      rw [hrun] at hx
      cases e with
      | other => subst hx; exact .inr ⟨rfl, rfl⟩
      | program => cases hd : ns.debug <;> rw [hd] at hx <;> subst hx <;> exact .inr ⟨rfl, rfl⟩

/-- When a command fails with an error of the program, `--debug` decides whether a message or a stack trace is
printed. Nothing is said about errors in the command line itself. -/
theorem C94_debug_partial (digit : Char → Bool) (run : Command → Except Raised Unit) {line : List Str} {r : Command}
    {debug quiet : Bool} (h : Reads Plain False line r debug quiet) :
    (run r = .ok () → (mainFn digit run line).status = 0) ∧
    (run r = .error .program → (mainFn digit run line).status = 1 ∧ (mainFn digit run line).trace = debug) ∧
    (run r = .error .other → (mainFn digit run line).status = 1 ∧ (mainFn digit run line).trace = true) := by
  obtain ⟨ns, h1, h2, rfl, rfl⟩ := reads_parse (digit := digit) h
  unfold mainFn
  rw [h1]
  simp only [h2]
  refine ⟨fun e => by rw [e], fun e => ?_, fun e => by rw [e]; exact ⟨rfl, rfl⟩⟩
  rw [e]
  cases hd : ns.debug <;> exact ⟨rfl, rfl⟩

/-- A global option that asks for a page is obeyed, whatever follows (but for words that start with `--=`). -/
theorem C94_page (digit : Char → Bool) (run : Command → Except Raised Unit) {pre : List Str} {gs : List Given} {w : Str}
    {a : Act} {post : List Str} (hg : Globals Plain pre gs) (h1 : has gs .help = false) (h2 : has gs .version = false)
    (hl : LongName none w a) (ha : a = .help ∨ a = .version) (hp : ∀ w ∈ post, ¬['-', '-', '='] <+: w) :
    mainFn digit run (pre ++ w :: post) =
      { status := 0, shown := if has gs .quiet then none else some (if a = .help then .main else .version) } := by
  unfold mainFn
  rw [parse_page hg ⟨h1, h2⟩ hl ha hp]

/-- With `--debug`, an error in the command line still gives a message: `zielen --debug sync`. -/
theorem C94_debug_fails : ∃ line : List Str, "--debug".toList ∈ line ∧ ∀ digit run,
    (mainFn digit run line).status = 1 ∧ (mainFn digit run line).trace = false := by
  refine ⟨["--debug".toList, "sync".toList], by simp, fun digit run => ?_⟩
  have : parseArgs digit ["--debug".toList, "sync".toList] = .error .input := rfl
  unfold mainFn
  rw [this]
  exact ⟨rfl, rfl⟩

/-- `zielen --debug sync p`, where the command fails. -/
example : Reads Plain False ["--debug".toList, "sync".toList, "p".toList] (.sync "p".toList) true false := by
  refine ⟨.sync, ["--debug".toList], ["p".toList], [(.debug, none)], [.operand "p".toList], rfl, ?_,
    .operand (.inl (by decide)) .nil, .sync, rfl, rfl, rfl, rfl⟩
  exact .cons (os := ["--debug".toList]) (gs := [(.debug, none)])
    (.flag ⟨by simp [offers], by decide, by decide, by decide⟩ rfl) .nil

example : mainFn Char.isDigit (fun _ => .error .program) ["--debug".toList, "sync".toList, "p".toList] =
    { status := 1, trace := true, ran := some (.sync "p".toList) } := by decide +kernel

/-- `zielen -q --vers sync`: with the output redirected, the version is not printed. -/
example : LongName none "--vers".toList .version ∧
    mainFn Char.isDigit (fun _ => .ok ()) ["-q".toList, "--vers".toList, "sync".toList] = { status := 0 } := by
  refine ⟨⟨by simp [offers], by decide, by decide, by decide⟩, by decide +kernel⟩

end Verif.Props
