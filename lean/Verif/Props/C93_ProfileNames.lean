import Verif.CommandLineOnly
import Verif.XdgPaths
/-
C93: A profile can be used under the name with which it was made.
-/
namespace Verif.Props
open Argparse CommandLine Usage

/-- The command line with which the daemon starts a sync, without the name of the program (zielen/daemon.py:181-182). -/
def daemonLine (name : Str) : List Str := ["--debug".toList, "sync".toList, name]

/-- If the name does not start with a dash, every command that gets it in the plain way is run for it, and so is the
sync that the daemon starts. -/
theorem C93_partial (digit : Char → Bool) (run : Command → Except Raised Unit) {name : Str}
    (h : name.head? ≠ some '-') :
    (mainFn digit run ["init".toList, name]).ran = some (.init name none none false) ∧
    (mainFn digit run ["sync".toList, name]).ran = some (.sync name) ∧
    (mainFn digit run ["reset".toList, name]).ran = some (.reset name false false) ∧
    (mainFn digit run ["empty-trash".toList, name]).ran = some (.emptyTrash name) ∧
    (mainFn digit run (daemonLine name)).ran = some (.sync name) := by
  have hrun : ∀ {line r debug quiet}, Reads Plain False line r debug quiet → (mainFn digit run line).ran = some r := by
    intro line r debug quiet h
    obtain ⟨ns, h1, h2, -⟩ := reads_parse (digit := digit) h
    unfold mainFn
    rw [h1]
    simp only [h2]
    split
    · rfl
    · rfl
    · split <;> rfl
  have hw : ∀ c, Words Plain False c [name] [.operand name] := fun c => .operand (.inl h) .nil
  refine ⟨hrun (debug := false) (quiet := false) ⟨.init, [], _, [], _, rfl, .nil, hw _, .init, rfl, rfl, rfl, rfl⟩,
    hrun (debug := false) (quiet := false) ⟨.sync, [], _, [], _, rfl, .nil, hw _, .sync, rfl, rfl, rfl, rfl⟩,
    hrun (debug := false) (quiet := false) ⟨.reset, [], _, [], _, rfl, .nil, hw _, .reset, rfl, rfl, rfl, rfl⟩,
    hrun (debug := false) (quiet := false) ⟨.emptyTrash, [], _, [], _, rfl, .nil, hw _, .emptyTrash, rfl, rfl, rfl, rfl⟩,
    hrun (debug := true) (quiet := false) ⟨.sync, ["--debug".toList], [name], [(.debug, none)], _, rfl, ?_, hw _, .sync,
      rfl, rfl, rfl, rfl⟩⟩
  exact .cons (os := ["--debug".toList]) (gs := [(.debug, none)])
    (.flag ⟨by simp [offers], by decide, by decide, by decide⟩ rfl) .nil

theorem globals_dash {plain : Str → Prop} {pre : List Str} {gs : List Given} (h : Globals plain pre gs) :
    ∀ w ∈ pre, w.head? = some '-' := by
  induction h with
  | nil => simp
  | @cons os gs ws hs ho _ ih =>
    intro w hw
    rcases List.mem_append.1 hw with hw | hw
    · have hv : ∀ a ∈ offers none, valued a = false := by decide
      have hlong : ∀ {n a}, LongName none n a → ∃ t, n = '-' :: t := by
        rintro n a ⟨-, hp, hl, -⟩
        obtain ⟨x, t, e, -⟩ := long_eq a
        rw [e] at hp
        cases n with
        | nil => simp at hl
        | cons y n => rw [List.cons_prefix_cons] at hp; exact ⟨n, by rw [hp.1]⟩
      have hcl : ∀ {cs vs gs}, Cluster plain none cs vs gs → vs = [] := by
        intro cs vs gs h
        induction h with
        | last => rfl
        | flag _ _ _ _ ih => exact ih
        | next ha _ hv' => rw [hv _ ha] at hv'; cases hv'
        | rest => rfl
        | equals => rfl
      cases ho with
      | flag hl =>
        obtain ⟨t, rfl⟩ := hlong hl
        simp at hw; rw [hw]; rfl
      | next hl hv' => rw [hv _ hl.1] at hv'; cases hv'
      | equals hl hv' => rw [hv _ hl.1] at hv'; cases hv'
      | cluster hc =>
        have := hcl hc
        subst this
        simp at hw; rw [hw]; rfl
    · exact ih w hw

theorem words_one {plain : Str → Prop} {bare : Prop} {c : Option Cmd} {w p : Str} {is : List Item}
    (h : Words plain bare c [w] is) (ho : operands is = [p]) : plain w ∧ p = w := by
  generalize hl : [w] = l at h
  cases h with
  | nil => cases hl
  | operand hp hr =>
    simp only [List.cons.injEq] at hl
    obtain ⟨rfl, rfl⟩ := hl
    simp only [operands, List.filterMap_cons, List.cons.injEq] at ho
    exact ⟨hp, ho.1.symm⟩
  | @options os gs ws is' hopt hr =>
    exfalso
    have hne : os ≠ [] := by cases hopt <;> simp
    have hws : ws = [] := by
      cases os with
      | nil => exact absurd rfl hne
      | cons o os => simp at hl; exact hl.2.2
    subst hws
    rw [operands_append, operands_map] at ho
    generalize hl' : ([] : List Str) = l' at hr
    cases hr with
    | nil => cases ho
    | operand => cases hl'
    | @options os' gs' _ _ ho' _ =>
      have : os' ≠ [] := by cases ho' <;> simp
      cases os' with
      | nil => exact this rfl
      | cons => cases hl'
    | dashes => cases hl'
  | dashes =>
    simp only [List.cons.injEq] at hl
    obtain ⟨_, rfl⟩ := hl
    cases ho

/-- A name that starts with a dash and is neither a single dash nor a negative number can be given to a new profile,
after `--`, but then the daemon never syncs that profile, because the program takes the name for an option. -/
theorem C93_dash_fails (space word digit : Char → Bool) (h1 : space ' ' = true) (h2 : space '\n' = true)
    (h3 : word '.' = false) {name : Str} (hacc : acceptedName space word name = true)
    (hdash : ∃ c t, name = '-' :: c :: t) (hnum : ∃ c ∈ name.tail, digit c = false)
    (run : Command → Except Raised Unit) :
    (mainFn digit run ["init".toList, "--".toList, name]).ran = some (.init name none none false) ∧
    (mainFn digit run (daemonLine name)).ran = none := by
  constructor
  · have : Reads Plain False ["init".toList, "--".toList, name] (.init name none none false) false false :=
      ⟨.init, [], ["--".toList, name], [], [.operand name], rfl, .nil, .dashes (ws := [name]) (by simp), .init, rfl, rfl,
        rfl, rfl⟩
    obtain ⟨ns, e1, e2, -⟩ := reads_parse (digit := digit) this
    unfold mainFn
    rw [e1]
    simp only [e2]
    split
    · rfl
    · rfl
    · split <;> rfl
  · have hplain : ¬PlainOr digit name := by
      have hsp : ∀ c ∈ name, space c = false := by
        simp only [acceptedName, Bool.and_eq_true, Bool.not_eq_true', List.any_eq_false] at hacc
        intro c hc
        simpa using hacc.1.1 c hc
      obtain ⟨c, t, rfl⟩ := hdash
      rintro ((h | h) | h | ⟨r, e, -, h⟩)
      · simp at h
      · simp at h
      · exact absurd (hsp _ h) (by rw [h1]; simp)
      · simp only [List.cons.injEq, true_and] at e
        subst e
        obtain ⟨x, hx, hd⟩ := hnum
        simp only [List.tail_cons] at hx
        rcases h x hx with h | h | h
        · rw [hd] at h; cases h
        · subst h
          have hlast : ('-' :: c :: t).getLast? ≠ some '\n' := by
            intro e
            exact absurd (hsp _ (List.mem_of_getLast? e)) (by rw [h2]; simp)
          simp only [acceptedName, hlast, if_false, Bool.and_eq_true, List.all_eq_true] at hacc
          have := hacc.2 '.' (List.mem_cons_of_mem _ hx)
          rw [h3] at this
          simp at this
        · subst h
          exact absurd (hsp _ (List.mem_cons_of_mem _ hx)) (by rw [h2]; simp)
    unfold mainFn
    cases hp : parseArgs digit (daemonLine name) with
    | error e => cases e <;> rfl
    | ok ns =>
      exfalso
      obtain ⟨c, pre, post, gs, is, hline, hg, hw, -, ho, -⟩ := parse_only hp
      have hg' := globals_dash hg
      have hname : c.name.head? ≠ some '-' := by cases c <;> decide
      cases pre with
      | nil =>
        simp only [daemonLine, List.nil_append, List.cons.injEq] at hline
        exact hname (by rw [← hline.1]; rfl)
      | cons w pre =>
        simp only [daemonLine, List.cons_append, List.cons.injEq] at hline
        obtain ⟨-, hline⟩ := hline
        cases pre with
        | cons w' pre =>
          simp only [List.cons_append, List.cons.injEq] at hline
          have := hg' w' (by simp)
          rw [← hline.1] at this
          revert this
          decide
        | nil =>
          simp only [List.nil_append, List.cons.injEq] at hline
          obtain ⟨hc, rfl⟩ := hline
          rcases ho with ⟨rfl, -⟩ | ⟨-, p, ho⟩
          · revert hc; decide
          · exact hplain (words_one hw ho).1

/-- The name `-x`. -/
example : acceptedName (fun c => c == ' ' || c == '\n') (fun c => c.isAlphanum) "-x".toList = true ∧
    (∃ c t, "-x".toList = '-' :: c :: t) ∧ ∃ c ∈ "-x".toList.tail, Char.isDigit c = false := by
  refine ⟨by decide, ⟨_, _, rfl⟩, 'x', by decide, by decide⟩

/-- With the name `--help` the daemon has the help page of the command printed again and again. -/
example : (mainFn Char.isDigit (fun _ => .ok ()) (daemonLine "--help".toList)).shown = some (.command "sync".toList) := by
  decide +kernel

end Verif.Props
