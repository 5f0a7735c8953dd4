import Verif.Text
/-
The line that the progress bar prints (zielen/utils.py:200-256).
-/
namespace Verif

/-- `str.rjust`. -/
def rjust (s : Str) (n : Int) : Str := List.replicate (n.toNat - s.length) ' ' ++ s

/-- `s[:n]`, also for a negative number. -/
def sliceTo (s : Str) (n : Int) : Str := if n < 0 then s.take (s.length - (-n).toNat) else s.take n.toNat

/-- `str` of a number. -/
def natStr (n : Nat) : Str := (toString n).toList

/-- The text of the bar (zielen/utils.py:237-244) with the default characters and no text at its ends. -/
def barStr (filled empty percent : Nat) : Str :=
  (List.replicate filled '█' ++ List.replicate empty '░') ++ ' ' :: (rjust (natStr percent) 3 ++ ['%'])

/-- What `ProgressBar.update` prints (zielen/utils.py:237-256) for `r_align`, which is the default and what
`transfer_tree` uses. `width` is the width of the terminal, `bar` and `filled` are the lengths of the bar and of its filled
part and `percent` the number that is shown: what the multiplications and roundings of floats give is left to
the hypotheses. -/
def progressLine (width bar filled percent : Nat) (message : Str) : Str :=
  let s := barStr filled (bar - filled) percent
  let msg := sliceTo message (width - s.length - 1)
  msg ++ rjust s (width - msg.length)

/-- `n` is an integer nearest to the fraction `a / b`: what `int(round(…))` gives. -/
def Nearest (a b n : Nat) : Prop := 2 * b * n ≤ 2 * a + b ∧ 2 * a ≤ 2 * b * n + b

end Verif
