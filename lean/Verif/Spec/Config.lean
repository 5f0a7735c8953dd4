import Verif.PosixPath
import Batteries.Data.List.Basic
/-
What a configuration file means, without reference to the parser.
-/
namespace Verif

/-- The Unicode white space characters. -/
def whiteSpace : List Nat := [9, 10, 11, 12, 13, 28, 29, 30, 31, 32, 0x85, 0xa0, 0x1680,
  0x2000, 0x2001, 0x2002, 0x2003, 0x2004, 0x2005, 0x2006, 0x2007, 0x2008, 0x2009, 0x200a,
  0x2028, 0x2029, 0x202f, 0x205f, 0x3000]

def White (c : Char) : Prop := c.toNat ∈ whiteSpace

/-- `t` is `s` without the white space at both ends. -/
def Trims (s t : Str) : Prop :=
  ∃ w w', s = w ++ t ++ w' ∧ (∀ c ∈ w, White c) ∧ (∀ c ∈ w', White c) ∧
    (∀ c, t.head? = some c → ¬ White c) ∧ (∀ c, t.getLast? = some c → ¬ White c)

/-- The first character that is not white space is `#`. -/
def CommentLine (l : Str) : Prop := ∃ w r, l = w ++ '#' :: r ∧ ∀ c ∈ w, White c

/-- A line sets `k` to `v`. -/
def Assigns (l k v : Str) : Prop :=
  ¬ CommentLine l ∧ ∃ a b, l = a ++ '=' :: b ∧ '=' ∉ a ∧ Trims a k ∧ Trims b v

/-- `ls` are the lines of a text, ended by `\n`, `\r\n` or `\r`. -/
inductive LinesOf : Str → List Str → Prop
  | last {l : Str} : '\n' ∉ l → '\r' ∉ l → LinesOf l [l]
  | cons {l sep t : Str} {ls : List Str} : '\n' ∉ l → '\r' ∉ l →
      (sep = ['\n'] ∨ sep = ['\r', '\n'] ∨ (sep = ['\r'] ∧ t.head? ≠ some '\n')) →
      LinesOf t ls → LinesOf (l ++ sep ++ t) (l :: ls)

/-- The last of the lines that set `k` sets it to `v`. -/
def LastAssigns (ls : List Str) (k v : Str) : Prop :=
  ∃ l1 l l2, ls = l1 ++ l :: l2 ∧ Assigns l k v ∧ ∀ l' ∈ l2, ∀ v', ¬ Assigns l' k v'

/-- Some digits. -/
def Digits (s : Str) : Prop := s ≠ [] ∧ ∀ c ∈ s, c ∈ ['0', '1', '2', '3', '4', '5', '6', '7', '8', '9']

/-- `s` is `w` with some letters in upper case. -/
def AnyCase (s w : Str) : Prop := List.Forall₂ (fun c d => c = d ∨ c = d.toUpper) s w

/-- A number, white space, and one of K, M, G followed by nothing, `B` or `iB`. The
letters may be in any case, and case is ignored as Unicode does: U+212A is a
capital k, U+0130 and U+0131 are forms of i. -/
def LimitValue (v num : Str) (p : Char) (u : Str) : Prop :=
  Digits num ∧ (∃ w, v = num ++ w ++ p :: u ∧ ∀ c ∈ w, White c) ∧
    p ∈ ['K', 'k', '\u212a', 'M', 'm', 'G', 'g'] ∧
    (u = [] ∨ (∃ b, u = [b] ∧ b ∈ ['B', 'b']) ∨
      (∃ i b, u = [i, b] ∧ i ∈ ['i', 'I', 'İ', 'ı'] ∧ b ∈ ['B', 'b']))

/-- The options and the syntax of their values. -/
inductive ValidOption : Str → Str → Prop
  | localDir {v : Str} : (∃ r, v = '/' :: r ∨ v = '~' :: '/' :: r) → ValidOption "LocalDir".toList v
  | remoteDir {v : Str} : (∃ r, v = '/' :: r ∨ v = '~' :: '/' :: r) → ValidOption "RemoteDir".toList v
  | limit {v num : Str} {p : Char} {u : Str} : LimitValue v num p u → ValidOption "StorageLimit".toList v
  | interval {v : Str} : Digits v → ValidOption "SyncInterval".toList v
  | halfLife {v : Str} : Digits v → ValidOption "PriorityHalfLife".toList v
  | cleanup {v : Str} : (Digits v ∨ ∃ r, v = '-' :: r ∧ Digits r) →
      ValidOption "TrashCleanupPeriod".toList v
  | bool {k v : Str} : k ∈ ["UseTrash".toList, "InflatePriority".toList, "AccountForSize".toList] →
      (v = [] ∨ AnyCase v "yes".toList ∨ AnyCase v "true".toList ∨ AnyCase v "no".toList ∨
        AnyCase v "false".toList) → ValidOption k v

/-- The documented defaults. -/
inductive DocDefault : Str → Str → Prop
  | interval : DocDefault "SyncInterval".toList "20".toList
  | halfLife : DocDefault "PriorityHalfLife".toList "120".toList
  | trash : DocDefault "UseTrash".toList "yes".toList
  | cleanup : DocDefault "TrashCleanupPeriod".toList "30".toList
  | inflate : DocDefault "InflatePriority".toList "yes".toList
  | size : DocDefault "AccountForSize".toList "yes".toList

/-- The number a digit string stands for, from the last digit. -/
def digitsValue (s : Str) : Nat :=
  match s with
  | [] => 0
  | c :: r => (c.toNat - '0'.toNat) * 10 ^ r.length + digitsValue r

end Verif
