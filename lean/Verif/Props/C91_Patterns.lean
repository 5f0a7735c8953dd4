import Verif.Glob
import Verif.Spec.Shell
import Verif.FSLemmas
import Verif.Props.C38_Options
import Verif.ExampleWorlds
import Verif.Commands
/-
C91: the exclude file excludes what the manual says.
-/
namespace Verif

/-! ### Names -/

/-- What the library takes for a match of one component. -/
def LibName (c n : Str) : Prop :=
  if hasMagic c then fnmatch n c = true ∧ (isHidden c = true ∨ isHidden n = false) else c = n

theorem hidden_iff {n : Str} : Hidden n ↔ isHidden n = true := by
  unfold Hidden isHidden
  simp

theorem bracket_plain {b p : Str} (h0 : b ≠ []) (h1 : ']' ∉ b) (h2 : b.head? ≠ some '!') :
    bracket (b ++ ']' :: p) = some (b, p) := by
  have h3 : (b ++ ']' :: p).head? = b.head? := by
    cases b with
    | nil => exact absurd rfl h0
    | cons x b => rfl
  have h4 : (b ++ ']' :: p).head? ≠ some ']' := by
    rw [h3]
    intro h
    exact h1 (List.mem_of_mem_head? h)
  have h5 : (b ++ ']' :: p).dropWhile (· != ']') = ']' :: p := by
    clear h0 h2 h3 h4
    induction b with
    | nil => simp
    | cons x b ih =>
      simp only [List.mem_cons, not_or] at h1
      rw [List.cons_append, List.dropWhile_cons, if_pos (by simpa using fun e => h1.1 e.symm), ih h1.2]
  have h6 : (b ++ ']' :: p).takeWhile (· != ']') = b := by
    rw [List.takeWhile_append_of_pos]
    · simp
    · intro x hx
      simp only [bne_iff_ne]
      exact fun e => h1 (e ▸ hx)
  unfold bracket
  rw [h3, if_neg h2]
  simp only [List.drop_zero, if_neg h4, List.take_zero, List.nil_append, h5, h6]

theorem setTok_plain {b : Str} (h0 : b ≠ []) (h1 : '-' ∉ b) (h2 : b.head? ≠ some '!') : setTok b = .set false [b] := by
  unfold setTok
  rw [if_neg h1]
  split
  · rename_i h; exact absurd (List.cons.inj h).1 h0
  · rename_i h; rw [(List.cons.inj h).1] at h2; simp at h2
  · rename_i h; rw [(List.cons.inj h).1] at h2; simp at h2
  · rfl

theorem matchStar {ts : List Tok} {s : Str} : matchToks (.star :: ts) s = true ↔
    ∃ a b, s = a ++ b ∧ matchToks ts b = true := by
  rw [matchToks, List.any_eq_true]
  constructor
  · rintro ⟨k, _, h⟩
    exact ⟨_, _, (List.take_append_drop k s).symm, h⟩
  · rintro ⟨a, b, rfl, h⟩
    exact ⟨a.length, by simp; omega, by simpa using h⟩

theorem nameLike_star {p s : Str} : NameLike ('*' :: p) s ↔ ∃ a b, s = a ++ b ∧ NameLike p b := by
  constructor
  · intro h
    generalize hq : '*' :: p = q at h
    induction h with
    | nil => cases hq
    | lit h => exact absurd (List.cons.inj hq).1.symm h
    | any => exact absurd (List.cons.inj hq).1 (by decide)
    | set => exact absurd (List.cons.inj hq).1 (by decide)
    | @skip p' s' h =>
      obtain rfl := (List.cons.inj hq).2
      exact ⟨[], _, rfl, h⟩
    | @more c p' s' h ih =>
      obtain ⟨a, b, rfl, h'⟩ := ih hq
      exact ⟨c :: a, b, rfl, h'⟩
  · rintro ⟨a, b, rfl, h⟩
    induction a with
    | nil => exact .skip h
    | cons c a ih => exact .more ih

/-- On patterns without negations and ranges the library does what the manual says. -/
theorem matchToks_iff {p : Str} (hp : PlainName p) : ∀ (n : Nat) (s : Str), p.length ≤ n →
    (matchToks (toks n p) s = true ↔ NameLike p s) := by
  induction hp with
  | nil =>
    intro n s _
    rw [toks, matchToks, List.isEmpty_iff]
    constructor
    · rintro rfl; exact .nil
    · intro h; cases h; rfl
  | @char c p hc hp ih =>
    intro n s hn
    cases n with
    | zero => simp at hn
    | succ n =>
      have hn' : p.length ≤ n := by simpa using hn
      rw [toks]
      by_cases h1 : c = '*'
      · subst h1
        rw [if_pos rfl, matchStar, nameLike_star]
        simp only [ih n _ hn']
      · rw [if_neg h1]
        by_cases h2 : c = '?'
        · subst h2
          rw [if_pos rfl]
          cases s with
          | nil =>
            rw [matchToks]
            · constructor
              · intro h; cases h
              · intro h; cases h
            · intro h; cases h
          | cons x s =>
            rw [matchToks]
            · simp only [tokChar, Bool.true_and, ih n _ hn']
              constructor
              · exact .any
              · intro h
                cases h with
                | lit _ h => exact absurd rfl h
                | any h => exact h
            · intro h; cases h
        · rw [if_neg h2, if_neg hc]
          cases s with
          | nil =>
            rw [matchToks]
            · constructor
              · intro h; cases h
              · intro h
                cases h with
                | skip => exact absurd rfl h1
            · intro h; cases h
          | cons x s =>
            rw [matchToks]
            · simp only [tokChar, Bool.and_eq_true, decide_eq_true_eq, ih n _ hn']
              constructor
              · rintro ⟨rfl, h⟩
                exact .lit h1 h2 hc h
              · intro h
                cases h with
                | lit _ _ _ h => exact ⟨rfl, h⟩
                | any => exact absurd rfl h2
                | skip => exact absurd rfl h1
                | more => exact absurd rfl h1
                | set => exact absurd rfl hc
            · intro h; cases h
  | @set b p h0 h1 h2 h3 hp ih =>
    intro n s hn
    cases n with
    | zero => simp at hn
    | succ n =>
      have hn' : p.length ≤ n := by simp at hn; omega
      show matchToks (toks (n + 1) ('[' :: (b ++ ']' :: p))) s = true ↔ _
      rw [toks, if_neg (by decide), if_neg (by decide), if_pos rfl, bracket_plain h0 h1 h3]
      simp only [setTok_plain h0 h2 h3]
      cases s with
      | nil =>
        rw [matchToks]
        · constructor
          · intro h; cases h
          · intro h
            generalize hq : '[' :: b ++ ']' :: p = q at h
            cases h with
            | nil => cases hq
            | skip => exact absurd (List.cons.inj hq).1 (by decide)
        · intro h; cases h
      | cons x s =>
        rw [matchToks]
        · simp only [tokChar, inChunks, Bool.and_eq_true, ih n _ hn']
          constructor
          · rintro ⟨h, h'⟩
            exact .set h1 (by simpa using h) h'
          · intro h
            generalize hq : '[' :: b ++ ']' :: p = q at h
            cases h with
            | lit _ _ h => exact absurd (List.cons.inj hq).1.symm h
            | any => exact absurd (List.cons.inj hq).1 (by decide)
            | skip => exact absurd (List.cons.inj hq).1 (by decide)
            | more => exact absurd (List.cons.inj hq).1 (by decide)
            | @set c b' p' s' k1 k2 k3 =>
              have h4 := (List.cons.inj hq).2
              have h5 : ∀ {b p : Str}, ']' ∉ b → (b ++ ']' :: p).takeWhile (· != ']') = b := by
                intro b p h1
                rw [List.takeWhile_append_of_pos]
                · simp
                · intro x hx
                  simp only [bne_iff_ne]
                  exact fun e => h1 (e ▸ hx)
              have h6 : b = b' := by
                rw [← h5 h1 (p := p), ← h5 k1 (p := p')]
                exact congrArg _ h4
              subst h6
              have h7 := (List.cons.inj (List.append_cancel_left h4)).2
              subst h7
              exact ⟨by simpa using k2, k3⟩
        · intro h; cases h

theorem plain_of_noMagic {c : Str} (h : hasMagic c = false) : PlainName c := by
  induction c with
  | nil => exact .nil
  | cons x c ih =>
    unfold hasMagic at h
    rw [List.any_cons, Bool.or_eq_false_iff] at h
    refine .char ?_ (ih h.2)
    rintro rfl
    exact absurd h.1 (by decide)

theorem nameLike_noMagic {c : Str} (h : hasMagic c = false) {n : Str} : NameLike c n ↔ c = n := by
  induction c generalizing n with
  | nil =>
    constructor
    · intro h; cases h; rfl
    · rintro rfl; exact .nil
  | cons x c ih =>
    unfold hasMagic at h
    rw [List.any_cons, Bool.or_eq_false_iff] at h
    obtain ⟨h1, h2⟩ := h
    simp only [Bool.or_eq_false_iff, decide_eq_false_iff_not] at h1
    constructor
    · intro h
      cases h with
      | lit _ _ _ h => rw [(ih h2).1 h]
      | any => exact absurd rfl h1.1.2
      | skip => exact absurd rfl h1.1.1
      | more => exact absurd rfl h1.1.1
      | set => exact absurd rfl h1.2
    · rintro rfl
      exact .lit h1.1.1 h1.1.2 h1.2 ((ih h2).2 rfl)

/-- The library agrees with the manual about one component. -/
theorem libName_iff {c n : Str} (h : PlainName c) : LibName c n ↔ NameMatches c n := by
  unfold LibName NameMatches
  by_cases hm : hasMagic c = true
  · rw [if_pos hm]
    unfold fnmatch
    rw [matchToks_iff h _ _ (Nat.le_refl _), hidden_iff, hidden_iff]
    refine and_congr_right fun _ => ?_
    cases isHidden c <;> cases isHidden n <;> simp
  · have hm : hasMagic c = false := by simpa using hm
    rw [if_neg (by simp [hm]), nameLike_noMagic hm]
    constructor
    · rintro rfl; exact ⟨rfl, id⟩
    · exact fun h => h.1

/-! ### Paths -/

theorem pathLike_congr {R R' : Str → Str → Prop} {cs : List Str} {p : Path} {d : Bool}
    (h : ∀ c ∈ cs, ∀ n, R c n → R' c n) (hp : PathLike R cs p d) : PathLike R' cs p d := by
  induction hp with
  | nil => exact .nil
  | name hc hn _ ih =>
    exact .name hc (h _ List.mem_cons_self _ hn) (ih (fun c hc => h c (List.mem_cons_of_mem _ hc)))
  | none => exact .none
  | one hn => exact .one hn
  | zero h0 _ ih => exact .zero h0 (ih (fun c hc => h c (List.mem_cons_of_mem _ hc)))
  | more hn _ ih => exact .more hn (ih h)

theorem pathLike_nil {R : Str → Str → Prop} {p : Path} {d : Bool} : PathLike R [] p d ↔ p = [] ∧ d = false := by
  constructor
  · intro h; cases h; exact ⟨rfl, rfl⟩
  · rintro ⟨rfl, rfl⟩; exact .nil

theorem pathLike_stars {R : Str → Str → Prop} {cs : List Str} {p : Path} {d : Bool} (h : PathLike R cs p d) :
    ∃ d', PathLike R (['*', '*'] :: cs) p d' := by
  by_cases h0 : cs = []
  · subst h0
    obtain ⟨rfl, -⟩ := pathLike_nil.1 h
    exact ⟨true, .none⟩
  · exact ⟨d, .zero h0 h⟩

theorem pathLike_snoc {R : Str → Str → Prop} {cs : List Str} {c : Str} (hc : c ≠ ['*', '*']) {p : Path} {d : Bool} :
    PathLike R (cs ++ [c]) p d ↔ d = false ∧ ∃ p1 n, p = p1 ++ [n] ∧ (∃ d', PathLike R cs p1 d') ∧ R c n := by
  constructor
  · intro h
    generalize hq : cs ++ [c] = q at h
    induction h generalizing cs with
    | nil => simp at hq
    | @name c0 n0 cs0 p0 d0 h1 h2 h3 ih =>
      cases cs with
      | nil =>
        obtain ⟨rfl, rfl⟩ := List.cons.inj hq
        obtain ⟨rfl, rfl⟩ := pathLike_nil.1 h3
        exact ⟨rfl, [], n0, rfl, ⟨_, .nil⟩, h2⟩
      | cons c1 cs =>
        obtain ⟨rfl, h4⟩ := List.cons.inj hq
        obtain ⟨rfl, p1, n, rfl, ⟨d', h5⟩, h6⟩ := ih h4
        exact ⟨rfl, n0 :: p1, n, rfl, ⟨d', .name h1 h2 h5⟩, h6⟩
    | none =>
      cases cs with
      | nil => exact absurd (List.cons.inj hq).1 hc
      | cons c1 cs => simp at hq
    | one =>
      cases cs with
      | nil => exact absurd (List.cons.inj hq).1 hc
      | cons c1 cs => simp at hq
    | zero h0 _ ih =>
      cases cs with
      | nil => exact absurd (List.cons.inj hq).1 hc
      | cons c1 cs =>
        obtain ⟨rfl, h4⟩ := List.cons.inj hq
        obtain ⟨rfl, p1, n, rfl, ⟨d', h5⟩, h6⟩ := ih h4
        exact ⟨rfl, p1, n, rfl, pathLike_stars h5, h6⟩
    | @more n0 cs0 p0 d0 h0 _ ih =>
      cases cs with
      | nil => exact absurd (List.cons.inj hq).1 hc
      | cons c1 cs =>
        obtain ⟨rfl, p1, n, rfl, ⟨d', h5⟩, h6⟩ := ih hq
        obtain ⟨rfl, h4⟩ := List.cons.inj hq
        exact ⟨rfl, n0 :: p1, n, rfl, ⟨d', .more h0 h5⟩, h6⟩
  · rintro ⟨rfl, p1, n, rfl, ⟨d', h⟩, hn⟩
    induction h with
    | nil => exact .name hc hn .nil
    | name h1 h2 _ ih => exact .name h1 h2 ih
    | none => exact .zero (by simp) (.name hc hn .nil)
    | one h1 => exact .more h1 (.zero (by simp) (.name hc hn .nil))
    | zero h0 _ ih => exact .zero (by simp) ih
    | more h0 _ ih => exact .more h0 ih

theorem pathLike_all {R : Str → Str → Prop} {p : Path} {d : Bool} (h : ∀ x ∈ p, ¬ Hidden x) (hd : p = [] → d = true) :
    PathLike R [['*', '*']] p d := by
  induction p with
  | nil => rw [hd rfl]; exact .none
  | cons n p ih =>
    have hn := h n List.mem_cons_self
    have ih := ih (fun x hx => h x (List.mem_cons_of_mem _ hx))
    by_cases h0 : p = []
    · subst h0
      cases d with
      | false => exact .one hn
      | true => exact .more hn .none
    · exact .more hn (ih (fun e => absurd e h0))

theorem pathLike_snoc_stars {R : Str → Str → Prop} {cs : List Str} {p : Path} {d : Bool} :
    PathLike R (cs ++ [['*', '*']]) p d ↔ ∃ p1 p2, p = p1 ++ p2 ∧ (∀ x ∈ p2, ¬ Hidden x) ∧
      (∃ d', PathLike R cs p1 d') ∧ (p2 = [] → d = true) := by
  constructor
  · intro h
    generalize hq : cs ++ [['*', '*']] = q at h
    induction h generalizing cs with
    | nil => simp at hq
    | @name c0 n0 cs0 p0 d0 h1 h2 h3 ih =>
      cases cs with
      | nil => exact absurd (List.cons.inj hq).1.symm h1
      | cons c1 cs =>
        obtain ⟨rfl, h4⟩ := List.cons.inj hq
        obtain ⟨p1, p2, rfl, h5, ⟨d', h6⟩, h7⟩ := ih h4
        exact ⟨n0 :: p1, p2, rfl, h5, ⟨d', .name h1 h2 h6⟩, h7⟩
    | none =>
      cases cs with
      | nil => exact ⟨[], [], rfl, by simp, ⟨_, .nil⟩, fun _ => rfl⟩
      | cons c1 cs => simp at hq
    | @one n h1 =>
      cases cs with
      | nil => exact ⟨[], [n], rfl, by simpa using h1, ⟨_, .nil⟩, by simp⟩
      | cons c1 cs => simp at hq
    | zero h0 _ ih =>
      cases cs with
      | nil => exact absurd (List.cons.inj hq).2.symm h0
      | cons c1 cs =>
        obtain ⟨rfl, h4⟩ := List.cons.inj hq
        obtain ⟨p1, p2, rfl, h5, ⟨d', h6⟩, h7⟩ := ih h4
        exact ⟨p1, p2, rfl, h5, pathLike_stars h6, h7⟩
    | @more n0 cs0 p0 d0 h0 _ ih =>
      obtain ⟨p1, p2, rfl, h5, ⟨d', h6⟩, h7⟩ := ih hq
      cases cs with
      | nil =>
        obtain ⟨rfl, -⟩ := pathLike_nil.1 h6
        refine ⟨[], n0 :: p2, rfl, ?_, ⟨_, .nil⟩, by simp⟩
        intro x hx
        rcases List.mem_cons.1 hx with rfl | hx
        · exact h0
        · exact h5 x hx
      | cons c1 cs =>
        obtain ⟨rfl, h4⟩ := List.cons.inj hq
        exact ⟨n0 :: p1, p2, rfl, h5, ⟨d', .more h0 h6⟩, h7⟩
  · rintro ⟨p1, p2, rfl, h5, ⟨d', h⟩, h7⟩
    have hb := pathLike_all (R := R) h5 h7
    induction h with
    | nil => exact hb
    | name h1 h2 _ ih => exact .name h1 h2 ih
    | none => exact .zero (by simp) hb
    | one h1 => exact .more h1 (.zero (by simp) hb)
    | zero h0 _ ih => exact .zero (by simp) ih
    | more h0 _ ih => exact .more h0 ih

theorem stars_magic {c : Str} (h : hasMagic c = false) : c ≠ ['*', '*'] := by
  rintro rfl
  exact absurd h (by decide)

theorem libName_noMagic {c n : Str} (h : hasMagic c = false) : LibName c n ↔ c = n := by
  unfold LibName
  rw [if_neg (by simp [h])]

/-- Components without wildcards stand for themselves. -/
theorem pathLike_literal {a cs : List Str} (ha : ∀ c ∈ a, hasMagic c = false) {m : Path} {d : Bool} :
    PathLike LibName (a ++ cs) m d ↔ ∃ p, m = a ++ p ∧ PathLike LibName cs p d := by
  induction a generalizing m with
  | nil => simp
  | cons c a ih =>
    have hc := ha c List.mem_cons_self
    have ih := @ih (fun c hc => ha c (List.mem_cons_of_mem _ hc))
    constructor
    · intro h
      rw [List.cons_append] at h
      generalize hq : a ++ cs = q at h
      cases h with
      | @name _ n _ p _ _ h1 h2 =>
        subst hq
        obtain ⟨p, rfl, h3⟩ := ih.1 h2
        exact ⟨p, by rw [(libName_noMagic hc).1 h1]; rfl, h3⟩
      | zero => exact absurd rfl (stars_magic hc)
      | more => exact absurd rfl (stars_magic hc)
      | none => exact absurd rfl (stars_magic hc)
      | one => exact absurd rfl (stars_magic hc)
    · rintro ⟨p, rfl, h⟩
      exact .name (stars_magic hc) ((libName_noMagic hc).2 rfl) (ih.2 ⟨p, rfl, h⟩)

theorem pathLike_self {a : List Str} (ha : ∀ c ∈ a, hasMagic c = false) {m : Path} {d : Bool} :
    PathLike LibName a m d ↔ m = a ∧ d = false := by
  have := pathLike_literal ha (cs := []) (m := m) (d := d)
  rw [List.append_nil] at this
  rw [this]
  constructor
  · rintro ⟨p, rfl, h⟩
    obtain ⟨rfl, rfl⟩ := pathLike_nil.1 h
    exact ⟨by simp, rfl⟩
  · rintro ⟨rfl, rfl⟩
    exact ⟨[], by simp, .nil⟩

/-! ### `glob` -/

theorem noMagic_of {d : List Str} (h : d.any hasMagic = false) : ∀ c ∈ d.reverse, hasMagic c = false := by
  intro c hc
  rw [List.any_eq_false] at h
  simpa using h c (List.mem_reverse.1 hc)

theorem iglob_sound {fs : FS} (wf : fs.WF) {r : List Str} : ∀ {dironly : Bool} {m : Path}, m ∈ iglob fs dironly r →
    ∃ n d, fs.get m = some n ∧ PathLike LibName r.reverse m d ∧ (d = true → n.isDir = true) := by
  induction r with
  | nil =>
    intro dironly m hm
    rw [iglob, List.mem_singleton] at hm
    subst hm
    exact ⟨.dir 0 8, false, by simp [FS.get], .nil, by simp⟩
  | cons b d ih =>
    intro dironly m hm
    rw [iglob] at hm
    by_cases hc : (hasMagic b || d.any hasMagic) = true
    · rw [if_pos hc, List.mem_flatMap] at hm
      obtain ⟨dir, hd, hm⟩ := hm
      obtain ⟨q, hq, rfl⟩ := List.mem_map.1 hm
      have hdir : ∃ d', PathLike LibName d.reverse dir d' := by
        by_cases hd' : d.any hasMagic = true
        · rw [if_pos hd'] at hd
          obtain ⟨_, d', _, h, _⟩ := ih hd
          exact ⟨d', h⟩
        · rw [if_neg hd', List.mem_singleton] at hd
          exact ⟨false, (pathLike_self (noMagic_of (by simpa using hd'))).2 ⟨hd, rfl⟩⟩
      rw [List.reverse_cons]
      unfold globIn at hq
      by_cases hb : hasMagic b = true
      · rw [if_pos hb] at hq
        by_cases hs : b = ['*', '*']
        · subst hs
          rw [if_pos rfl, List.mem_append] at hq
          rcases hq with hq | hq
          · split at hq
            · rename_i hi
              rw [List.mem_singleton] at hq
              subst hq
              rw [List.append_nil]
              rcases Option.eq_none_or_eq_some (fs.get dir) with hg | ⟨n, hg⟩
              · unfold FS.isDir at hi
                rw [hg] at hi
                cases hi
              · refine ⟨n, true, hg, pathLike_snoc_stars.2 ⟨dir, [], by simp, by simp, hdir, fun _ => rfl⟩, ?_⟩
                intro _
                unfold FS.isDir at hi
                rw [hg] at hi
                simpa using hi
            · cases hq
          · unfold rlistdir at hq
            rw [List.mem_filterMap] at hq
            obtain ⟨⟨q', n⟩, he, hq⟩ := hq
            split at hq
            · rename_i hi
              cases hq
              obtain ⟨h1, h2⟩ := wf.mem_below_iff.1 he
              rw [Bool.and_eq_true, List.all_eq_true] at hi
              refine ⟨n, false, h1, pathLike_snoc_stars.2 ⟨dir, _, rfl, ?_, hdir, fun e => absurd e h2⟩, by simp⟩
              intro x hx
              have := hi.2 x hx
              rw [hidden_iff]
              simpa using this
            · cases hq
        · rw [if_neg hs] at hq
          obtain ⟨x, hx, rfl⟩ := List.mem_map.1 hq
          rw [List.mem_filter, List.mem_filter] at hx
          obtain ⟨⟨hx, h1⟩, h2⟩ := hx
          unfold listdir at hx
          rw [List.mem_filterMap] at hx
          obtain ⟨⟨q, n⟩, he, hx⟩ := hx
          split at hx
          · rename_i y hy
            split at hx
            · cases hx
              have hy : q = [x] := hy
              subst hy
              obtain ⟨h3, _⟩ := wf.mem_below_iff.1 he
              refine ⟨n, false, h3, (pathLike_snoc hs).2 ⟨rfl, dir, x, rfl, hdir, ?_⟩, by simp⟩
              unfold LibName
              rw [if_pos hb]
              refine ⟨h2, ?_⟩
              simpa using h1
            · cases hx
          · cases hx
      · have hb : hasMagic b = false := by simpa using hb
        rw [if_neg (by simp [hb])] at hq
        split at hq
        · rename_i hi
          rw [List.mem_singleton] at hq
          subst hq
          obtain ⟨n, hn⟩ := Option.isSome_iff_exists.1 hi
          exact ⟨n, false, hn, (pathLike_snoc (stars_magic hb)).2
            ⟨rfl, dir, b, rfl, hdir, (libName_noMagic hb).2 rfl⟩, by simp⟩
        · cases hq
    · rw [if_neg hc] at hm
      rw [Bool.not_eq_true, Bool.or_eq_false_iff] at hc
      split at hm
      · rename_i hi
        rw [List.mem_singleton] at hm
        subst hm
        obtain ⟨n, hn⟩ := Option.isSome_iff_exists.1 hi
        refine ⟨n, false, hn, (pathLike_self (noMagic_of ?_)).2 ⟨rfl, rfl⟩, by simp⟩
        rw [List.any_cons, hc.1, hc.2]
        rfl
      · cases hm

theorem isDir_of_get {fs : FS} {p : Path} {n : Node} (h : fs.get p = some n) : fs.isDir p = n.isDir := by
  unfold FS.isDir
  rw [h]
  rfl

theorem get_of_isDir {fs : FS} {p : Path} (h : fs.isDir p = true) : ∃ n, fs.get p = some n ∧ n.isDir = true := by
  rcases Option.eq_none_or_eq_some (fs.get p) with hg | ⟨n, hg⟩
  · unfold FS.isDir at h
    rw [hg] at h
    cases h
  · exact ⟨n, hg, by rw [isDir_of_get hg] at h; exact h⟩

theorem iglob_complete {fs : FS} (wf : fs.WF) {r : List Str} : ∀ {dironly : Bool} {m : Path} {n : Node} {d : Bool},
    fs.get m = some n → PathLike LibName r.reverse m d → (d = true → n.isDir = true) →
    (dironly = true → n.isDir = true) → m ∈ iglob fs dironly r := by
  induction r with
  | nil =>
    intro dironly m n d _ h _ _
    rw [(pathLike_nil.1 h).1, iglob]
    exact List.mem_singleton.2 rfl
  | cons b ds ih =>
    intro dironly m n d hg h hd hdo
    rw [List.reverse_cons] at h
    have dirs : ∀ p1 d', fs.isDir p1 = true → PathLike LibName ds.reverse p1 d' →
        p1 ∈ (if ds.any hasMagic then iglob fs true ds else [ds.reverse]) := by
      intro p1 d' h1 h2
      by_cases hm : ds.any hasMagic = true
      · rw [if_pos hm]
        obtain ⟨n1, h3, h4⟩ := get_of_isDir h1
        exact ih h3 h2 (fun _ => h4) (fun _ => h4)
      · rw [if_neg hm, List.mem_singleton]
        exact ((pathLike_self (noMagic_of (by simpa using hm))).1 h2).1
    have inDir : ∀ p1 p2, m = p1 ++ p2 → p2 ≠ [] → fs.isDir p1 = true := by
      rintro p1 p2 rfl h2
      exact wf.isDir_prefix hg p1 (List.prefix_append _ _) (fun e => h2 (by simpa using e))
    rw [iglob]
    by_cases hb : hasMagic b = true
    · rw [if_pos (by simp [hb]), List.mem_flatMap]
      unfold globIn
      by_cases hs : b = ['*', '*']
      · subst hs
        obtain ⟨p1, p2, rfl, h1, ⟨d', h2⟩, h3⟩ := pathLike_snoc_stars.1 h
        have hdir : fs.isDir p1 = true := by
          by_cases h0 : p2 = []
          · have hg' := hg
            rw [h0, List.append_nil] at hg'
            rw [isDir_of_get hg']
            exact hd (h3 h0)
          · exact inDir p1 p2 rfl h0
        refine ⟨p1, dirs p1 d' hdir h2, List.mem_map.2 ⟨p2, ?_, rfl⟩⟩
        rw [if_pos hb, if_pos rfl, List.mem_append]
        by_cases h0 : p2 = []
        · left; rw [if_pos hdir, h0]; exact List.mem_singleton.2 rfl
        · right
          unfold rlistdir
          rw [List.mem_filterMap]
          refine ⟨(p2, n), wf.mem_below_iff.2 ⟨hg, h0⟩, if_pos ?_⟩
          rw [Bool.and_eq_true, List.all_eq_true]
          constructor
          · cases dironly with
            | false => rfl
            | true => simpa using hdo rfl
          · intro x hx
            have := h1 x hx
            rw [hidden_iff] at this
            simpa using this
      · obtain ⟨rfl, p1, x, rfl, ⟨d', h2⟩, h3⟩ := (pathLike_snoc hs).1 h
        refine ⟨p1, dirs p1 d' (inDir p1 [x] rfl (by simp)) h2, List.mem_map.2 ⟨[x], ?_, rfl⟩⟩
        rw [if_pos hb, if_neg hs]
        unfold LibName at h3
        rw [if_pos hb] at h3
        refine List.mem_map.2 ⟨x, ?_, rfl⟩
        rw [List.mem_filter, List.mem_filter]
        refine ⟨⟨?_, by simpa using h3.2⟩, h3.1⟩
        unfold listdir
        rw [List.mem_filterMap]
        refine ⟨([x], n), wf.mem_below_iff.2 ⟨hg, by simp⟩, ?_⟩
        dsimp only
        rw [if_pos]
        cases dironly with
        | false => rfl
        | true => simpa using hdo rfl
    · have hb : hasMagic b = false := by simpa using hb
      obtain ⟨rfl, p1, x, rfl, ⟨d', h2⟩, h3⟩ := (pathLike_snoc (stars_magic hb)).1 h
      obtain rfl := (libName_noMagic hb).1 h3
      by_cases hm : ds.any hasMagic = true
      · rw [if_pos (by simp [hm]), List.mem_flatMap]
        refine ⟨p1, dirs p1 d' (inDir p1 [b] rfl (by simp)) h2, List.mem_map.2 ⟨[b], ?_, rfl⟩⟩
        unfold globIn
        rw [if_neg (by simp [hb]), hg]
        exact List.mem_singleton.2 rfl
      · obtain ⟨rfl, -⟩ := (pathLike_self (noMagic_of (by simpa using hm))).1 h2
        rw [if_neg (by simp [hb]; simpa using hm), List.reverse_cons, hg]
        exact List.mem_singleton.2 rfl

/-- What `glob.glob` finds. -/
theorem mem_glob {fs : FS} (wf : fs.WF) {comps : List Str} {slash : Bool} {m : Path} : m ∈ glob fs comps slash ↔
    ∃ n d, fs.get m = some n ∧ PathLike LibName comps m d ∧ ((d || slash) = true → n.isDir = true) := by
  unfold glob
  cases slash with
  | false =>
    simp only [Bool.or_false]
    rw [if_neg (by simp)]
    constructor
    · intro h
      have := iglob_sound wf h
      rwa [List.reverse_reverse] at this
    · rintro ⟨n, d, h1, h2, h3⟩
      exact iglob_complete wf h1 (by rwa [List.reverse_reverse]) h3 (by simp)
  | true =>
    simp only [Bool.or_true, true_implies]
    rw [if_pos trivial]
    by_cases hm : comps.any hasMagic = true
    · rw [if_pos hm, List.mem_filter]
      constructor
      · rintro ⟨h, hd⟩
        obtain ⟨n, d, h1, h2, -⟩ := iglob_sound wf h
        rw [List.reverse_reverse] at h2
        rw [isDir_of_get h1] at hd
        exact ⟨n, d, h1, h2, hd⟩
      · rintro ⟨n, d, h1, h2, h3⟩
        exact ⟨iglob_complete wf h1 (by rwa [List.reverse_reverse]) (fun _ => h3) (fun _ => h3),
          by rw [isDir_of_get h1]; exact h3⟩
    · rw [if_neg hm]
      have hm : ∀ c ∈ comps, hasMagic c = false := by
        have := noMagic_of (d := comps.reverse) (by simpa using hm)
        rwa [List.reverse_reverse] at this
      constructor
      · intro h
        split at h
        · rename_i hd
          rw [List.mem_singleton] at h
          subst h
          obtain ⟨n, h1, h2⟩ := get_of_isDir hd
          exact ⟨n, false, h1, (pathLike_self hm).2 ⟨rfl, rfl⟩, h2⟩
        · cases h
      · rintro ⟨n, d, h1, h2, h3⟩
        obtain ⟨rfl, -⟩ := (pathLike_self hm).1 h2
        rw [if_pos (by rw [isDir_of_get h1]; exact h3)]
        exact List.mem_singleton.2 rfl

/-! ### Lines -/

theorem isComment_newline (l : Str) : isComment (l ++ ['\n']) = isComment l := by
  unfold isComment
  rw [List.dropWhile_append]
  split
  · rename_i h
    rw [List.isEmpty_iff] at h
    rw [h]
    decide
  · rename_i h
    cases hd : l.dropWhile pySpace with
    | nil => rw [hd] at h; simp at h
    | cons c r => rfl

theorem strip_newline (b : Str) : strip (b ++ ['\n']) = strip b := by
  obtain ⟨w, w', e, h1, h2, h3, h4⟩ := trims_iff.2 (rfl : strip b = strip b)
  refine trims_iff.1 ⟨w, w' ++ ['\n'], ?_, h1, ?_, h3, h4⟩
  · conv => lhs; rw [e]
    simp
  · intro c hc
    rcases List.mem_append.1 hc with hc | hc
    · exact h2 c hc
    · rw [List.mem_singleton.1 hc]; simp [White, whiteSpace]

/-- The lines that count. -/
theorem mem_patternLines {T : Str} {ls : List Str} (h : LinesOf T ls) (t : Str) : t ∈ patternLines T ↔ Counts ls t := by
  suffices hh : t ∈ patternLines T ↔ ∃ l ∈ ls, isComment l = false ∧ strip l = t ∧ t ≠ [] by
    rw [hh]
    unfold Counts
    simp only [commentLine_iff, trims_iff, Bool.not_eq_true]
  have key : ∀ X : List Str, t ∈ (((X.filter (fun l => !isComment l)).map strip).filter (fun l => !l.isEmpty)) ↔
      ∃ l ∈ X, isComment l = false ∧ strip l = t ∧ t ≠ [] := by
    intro X
    rw [List.mem_filter, List.mem_map]
    constructor
    · rintro ⟨⟨l, hl, rfl⟩, h0⟩
      rw [List.mem_filter] at hl
      exact ⟨l, hl.1, by simpa using hl.2, rfl, by simpa using h0⟩
    · rintro ⟨l, hl, hc, rfl, h0⟩
      exact ⟨⟨l, List.mem_filter.2 ⟨hl, by simp [hc]⟩, rfl⟩, by simpa using h0⟩
  unfold patternLines
  rw [key]
  induction h with
  | @last l h1 h2 =>
    rw [univNewlines_eq h2]
    by_cases h0 : l = []
    · subst h0
      constructor
      · rintro ⟨l, hl, -⟩; cases hl
      · rintro ⟨l, hl, -, rfl, h⟩
        rw [List.mem_singleton] at hl
        subst hl
        exact absurd (by decide) h
    · rw [fileLines_last h1 h0]
  | @cons l sep t ls h1 h2 h3 _ ih =>
    have : univNewlines (l ++ sep ++ t) = l ++ '\n' :: univNewlines t := by
      rw [List.append_assoc, univNewlines_append h2]
      congr 1
      rcases h3 with rfl | rfl | ⟨rfl, ht⟩
      · exact univNewlines_append (l := ['\n']) (by decide) t
      · rfl
      · cases t with
        | nil => rfl
        | cons c t =>
          have hc : c ≠ '\n' := by simpa using ht
          show univNewlines ('\r' :: c :: t) = _
          conv => lhs; unfold univNewlines
          split
          · rename_i he
            exact absurd (List.cons.inj (List.cons.inj he).2).1 hc
          · rename_i he
            rw [← (List.cons.inj he).2]
          · rename_i _ hne he
            exact absurd (List.cons.inj he).1.symm hne
          · rename_i he; simp at he
    rw [this, fileLines_line h1]
    constructor
    · rintro ⟨x, hx, h5⟩
      rcases List.mem_cons.1 hx with rfl | hx
      · rw [isComment_newline, strip_newline] at h5
        exact ⟨l, List.mem_cons_self, h5⟩
      · obtain ⟨y, hy, h6⟩ := ih.1 ⟨x, hx, h5⟩
        exact ⟨y, List.mem_cons_of_mem _ hy, h6⟩
    · rintro ⟨x, hx, h5⟩
      rcases List.mem_cons.1 hx with rfl | hx
      · exact ⟨_, List.mem_cons_self, by rw [isComment_newline, strip_newline]; exact h5⟩
      · obtain ⟨y, hy, h6⟩ := ih.2 ⟨x, hx, h5⟩
        exact ⟨y, List.mem_cons_of_mem _ hy, h6⟩

/-- A line is a pattern in at most one way. -/
theorem isPattern_det {t : Str} {rooted dirs : Bool} {cs : List Str} (h : IsPattern t rooted cs dirs) :
    (Posix.split t).filter (fun c => !c.isEmpty) = cs ∧ (t.head? = some '/' ↔ rooted = true) ∧
      (t.getLast? == some '/') = dirs := by
  obtain ⟨rfl, h0, hg⟩ := h
  obtain ⟨c, cs, rfl⟩ := List.exists_cons_of_ne_nil h0
  have hsep : ∀ x ∈ c :: cs, '/' ∉ x := fun x hx => (hg x hx).2.1
  have h1 : Posix.split (toStr (c :: cs)) = c :: cs := Posix.split_intercalate _ h0 hsep
  have h2 : (c :: cs).filter (fun c => !c.isEmpty) = c :: cs := by
    rw [List.filter_eq_self]
    intro x hx
    simpa using (hg x hx).1
  obtain ⟨s, z, hs, hz⟩ := toStr_getLast h0 hg
  have h3 : ∃ y r, toStr (c :: cs) = y :: r ∧ y ≠ '/' := by
    have hc := hg c List.mem_cons_self
    obtain ⟨y, c', rfl⟩ := List.exists_cons_of_ne_nil hc.1
    have hy : y ≠ '/' := fun e => hc.2.1 (e ▸ List.mem_cons_self)
    cases cs with
    | nil => exact ⟨y, c', rfl, hy⟩
    | cons d cs =>
      refine ⟨y, c' ++ '/' :: toStr (d :: cs), ?_, hy⟩
      unfold toStr
      rw [Posix.intercalate_cons _ _ (by simp)]
      rfl
  obtain ⟨y, r, hy, hy'⟩ := h3
  have h4 : ∀ b : Bool, Posix.split (toStr (c :: cs) ++ (if b then ['/'] else [])) =
      (c :: cs) ++ (if b then [[]] else []) := by
    intro b
    cases b with
    | false => simpa using h1
    | true =>
      show Posix.split (toStr (c :: cs) ++ '/' :: []) = _
      rw [Posix.split_append, h1]
      rfl
  have h5 : ∀ b : Bool, ((c :: cs) ++ (if b then [[]] else [])).filter (fun c => !c.isEmpty) = c :: cs := by
    intro b
    rw [List.filter_append, h2]
    cases b <;> simp
  refine ⟨?_, ?_, ?_⟩
  · cases rooted with
    | false =>
      show (Posix.split ([] ++ toStr (c :: cs) ++ _)).filter _ = _
      rw [List.nil_append, h4, h5]
    | true =>
      show (Posix.split (['/'] ++ toStr (c :: cs) ++ _)).filter _ = _
      have := Posix.split_append [] (toStr (c :: cs) ++ (if dirs then ['/'] else []))
      rw [List.nil_append] at this
      rw [List.append_assoc, List.singleton_append, this, h4, List.filter_append, h5]
      rfl
  · cases rooted with
    | false =>
      rw [hy]
      simp [hy']
    | true => simp
  · cases dirs with
    | false =>
      simp only [Bool.false_eq_true, if_false, List.append_nil, hs, ← List.append_assoc]
      rw [List.getLast?_concat]
      simpa using hz
    | true =>
      simp only [if_true]
      rw [List.getLast?_concat]
      rfl

/-- No wildcard. -/
def NoWild (c : Str) : Prop := '*' ∉ c ∧ '?' ∉ c ∧ '[' ∉ c

theorem noWild_magic {c : Str} (h : NoWild c) : hasMagic c = false := by
  unfold hasMagic
  rw [List.any_eq_false]
  intro x hx
  simp only [Bool.or_eq_true, decide_eq_true_eq, not_or]
  refine ⟨⟨?_, ?_⟩, ?_⟩
  · rintro rfl; exact h.1 hx
  · rintro rfl; exact h.2.1 hx
  · rintro rfl; exact h.2.2 hx

theorem mem_lineMatches {fs : FS} {loc : Path} {t : Str} {p : Path} : p ∈ lineMatches fs loc t ↔
    loc ++ p ∈ glob fs (lineComps loc t) (t.getLast? == some '/') := by
  unfold lineMatches
  rw [List.mem_filterMap]
  constructor
  · rintro ⟨m, hm, h⟩
    split at h
    · rename_i hp
      obtain ⟨q, rfl⟩ := List.isPrefixOf_iff_prefix.1 hp
      rw [List.drop_left] at h
      cases h
      exact hm
    · cases h
  · intro h
    refine ⟨_, h, ?_⟩
    rw [if_pos (List.isPrefixOf_iff_prefix.2 (List.prefix_append _ _)), List.drop_left]

theorem plain_stars : PlainName ['*', '*'] := .char (by decide) (.char (by decide) .nil)

/-- The exclude file excludes what the manual says, if the path of the sync directory has no wildcards and the patterns
have no negations, ranges and unclosed brackets. -/
theorem C91_matches_partial {fs : FS} (wf : fs.WF) {loc : Path} (hl : ∀ c ∈ loc, NoWild c) {T : Str} {ls : List Str}
    (hT : LinesOf T ls)
    (hp : ∀ t, Counts ls t → ∃ rooted cs dirs, IsPattern t rooted cs dirs ∧ ∀ c ∈ cs, PlainName c) (p : Path) :
    p ∈ textMatches fs loc T ↔ ∃ t rooted cs dirs n d, Counts ls t ∧ IsPattern t rooted cs dirs ∧
      fs.get (loc ++ p) = some n ∧ PathLike NameMatches (if rooted then cs else ['*', '*'] :: cs) p d ∧
      ((d || dirs) = true → n.isDir = true) := by
  have key : ∀ t rooted cs dirs, IsPattern t rooted cs dirs → (∀ c ∈ cs, PlainName c) →
      (p ∈ lineMatches fs loc t ↔ ∃ n d, fs.get (loc ++ p) = some n ∧
        PathLike NameMatches (if rooted then cs else ['*', '*'] :: cs) p d ∧ ((d || dirs) = true → n.isDir = true)) := by
    intro t rooted cs dirs hi hc
    obtain ⟨h1, h2, h3⟩ := isPattern_det hi
    have h4 : lineComps loc t = loc ++ (if rooted then cs else ['*', '*'] :: cs) := by
      unfold lineComps
      rw [h1]
      cases rooted with
      | false =>
        have h2 : ¬ t.head? = some '/' := by simpa using h2
        simp [h2]
      | true =>
        have h2 : t.head? = some '/' := by simpa using h2
        simp [h2]
    have h5 : ∀ c ∈ (if rooted then cs else ['*', '*'] :: cs), PlainName c := by
      intro c hm
      cases rooted with
      | true => exact hc c hm
      | false =>
        rcases List.mem_cons.1 hm with rfl | hm
        · exact plain_stars
        · exact hc c hm
    rw [mem_lineMatches, mem_glob wf, h3, h4]
    generalize (if rooted then cs else ['*', '*'] :: cs) = cs at h5
    constructor
    · rintro ⟨n, d, h6, h7, h8⟩
      obtain ⟨q, h9, h10⟩ := (pathLike_literal (fun c hc => noWild_magic (hl c hc))).1 h7
      rw [List.append_cancel_left h9]
      exact ⟨n, d, List.append_cancel_left h9 ▸ h6, pathLike_congr (fun c hc n => (libName_iff (h5 c hc)).1) h10, h8⟩
    · rintro ⟨n, d, h6, h7, h8⟩
      exact ⟨n, d, h6, (pathLike_literal (fun c hc => noWild_magic (hl c hc))).2
        ⟨p, rfl, pathLike_congr (fun c hc n => (libName_iff (h5 c hc)).2) h7⟩, h8⟩
  unfold textMatches
  rw [List.mem_flatMap]
  constructor
  · rintro ⟨t, ht, hm⟩
    have ht := (mem_patternLines hT t).1 ht
    obtain ⟨rooted, cs, dirs, hi, hc⟩ := hp t ht
    obtain ⟨n, d, h⟩ := (key t rooted cs dirs hi hc).1 hm
    exact ⟨t, rooted, cs, dirs, n, d, ht, hi, h⟩
  · rintro ⟨t, rooted, cs, dirs, n, d, ht, hi, h⟩
    obtain ⟨rooted', cs', dirs', hi', hc⟩ := hp t ht
    have : cs = cs' := (isPattern_det hi).1.symm.trans (isPattern_det hi').1
    subst this
    exact ⟨t, (mem_patternLines hT t).2 ht, (key t rooted cs dirs hi hc).2 ⟨n, d, h⟩⟩

/-- The patterns of a profile are those of the file that was given to `init`. -/
theorem C91_generate (fs : FS) (loc : Path) (T : Str) :
    textMatches fs loc (generateExclude (some T)) = textMatches fs loc T ∧
      textMatches fs loc (generateExclude none) = [] := by
  have key : ∀ s, '\r' ∉ s → patternLines (excludeHeader ++ s) =
      (((fileLines s).filter (fun l => !isComment l)).map strip).filter (fun l => !l.isEmpty) := by
    intro s hs
    have h1 : '\r' ∉ excludeHeader ++ s := by
      rw [List.mem_append, not_or]
      exact ⟨by decide +kernel, hs⟩
    have h2 : excludeHeader ++ s =
        ("# This file contains patterns representing files and directories to exclude".toList ++ '\n' ::
        ("# from syncing.".toList ++ '\n' :: ("#".toList ++ '\n' ::
        ("# The patterns follow shell globbing rules as described in zielen(1).".toList ++ '\n' :: s)))) := by
      have : excludeHeader =
        "# This file contains patterns representing files and directories to exclude".toList ++ '\n' ::
        ("# from syncing.".toList ++ '\n' :: ("#".toList ++ '\n' ::
        ("# The patterns follow shell globbing rules as described in zielen(1).".toList ++ ['\n']))) := by
        decide +kernel
      rw [this]
      simp only [List.append_assoc, List.cons_append, List.nil_append]
    unfold patternLines
    rw [univNewlines_eq h1, h2, fileLines_line (by decide +kernel), fileLines_line (by decide +kernel),
      fileLines_line (by decide +kernel), fileLines_line (by decide +kernel)]
    rw [List.filter_cons, if_neg (by decide +kernel), List.filter_cons, if_neg (by decide +kernel), List.filter_cons,
      if_neg (by decide +kernel), List.filter_cons, if_neg (by decide +kernel)]
  constructor
  · unfold textMatches generateExclude
    rw [key _ (not_mem_univNewlines T)]
    rfl
  · unfold textMatches generateExclude
    rw [key [] (by simp)]
    rfl

/-- C91 in full is false. If a component of the path of the sync directory is a pattern that does not match its own
text, such as `a[1]`, then nothing is excluded, whatever is in the exclude file. -/
theorem C91_wild_fails {fs : FS} (wf : fs.WF) {loc : Path} {c : Str} (hc : c ∈ loc) (hw : hasMagic c = true)
    (hm : fnmatch c c = false) (hs : ['*', '*'] ∉ loc) (T : Str) : textMatches fs loc T = [] := by
  have key : ∀ (a cs q : List Str) (d : Bool), ['*', '*'] ∉ a → PathLike LibName (a ++ cs) (a ++ q) d →
      ∀ x ∈ a, LibName x x := by
    intro a
    induction a with
    | nil => intro _ _ _ _ _ x hx; cases hx
    | cons y a ih =>
      intro cs q d h0 h x hx
      simp only [List.mem_cons, not_or] at h0
      rw [List.cons_append, List.cons_append] at h
      generalize h1 : a ++ cs = a1 at h
      generalize h2 : a ++ q = a2 at h
      cases h with
      | name _ h3 h4 =>
        subst h1 h2
        rcases List.mem_cons.1 hx with rfl | hx
        · exact h3
        · exact ih cs q d h0.2 h4 x hx
      | one => exact absurd rfl h0.1
      | zero => exact absurd rfl h0.1
      | more => exact absurd rfl h0.1
  unfold textMatches
  rw [List.flatMap_eq_nil_iff]
  intro t _
  rw [List.eq_nil_iff_forall_not_mem]
  intro p hp
  rw [mem_lineMatches, mem_glob wf] at hp
  obtain ⟨_, d, _, h, _⟩ := hp
  have : ∃ cs, lineComps loc t = loc ++ cs := by
    unfold lineComps
    dsimp only
    split
    · exact ⟨_, rfl⟩
    · exact ⟨_, rfl⟩
  obtain ⟨cs, h1⟩ := this
  rw [h1] at h
  have := key loc cs p d hs h c hc
  unfold LibName at this
  rw [if_pos hw, hm] at this
  cases this.1

/-- `a[1]` is such a name. -/
example : hasMagic "a[1]".toList = true ∧ fnmatch "a[1]".toList "a[1]".toList = false := by decide +kernel

/-- A double asterisk that is not a component of its own does not match a slash: `/a**b` does not match `a/b`. -/
theorem C91_stars_fails : ∃ (fs : FS) (loc p : Path) (n : Node), fs.WF ∧ fs.get (loc ++ p) = some n ∧
    (∃ s, toStr p = "a".toList ++ s ++ "b".toList) ∧ textMatches fs loc "/a**b".toList = [] := by
  refine ⟨[(["l".toList], .dir 1 8), (["l".toList, "a".toList], .dir 1 8),
    (["l".toList, "a".toList, "b".toList], .file 7 1 1)], ["l".toList], ["a".toList, "b".toList], .file 7 1 1, ?_, ?_,
    ⟨"/".toList, by decide +kernel⟩, by decide +kernel⟩
  · exact ⟨by decide +kernel, by decide +kernel, by decide +kernel, by decide +kernel⟩
  · decide +kernel

/-- The other properties have a parameter for the meaning of an exclude file, `Env.patsOf`: predicates on paths. For
patterns that are not restricted to directories there are such predicates, the same ones for every state of the file
system. -/
theorem C91_parameter {loc : Path} (hl : ∀ c ∈ loc, NoWild c) {T : Str} {ls : List Str} (hT : LinesOf T ls)
    (hp : ∀ t, Counts ls t → ∃ rooted cs c, IsPattern t rooted (cs ++ [c]) false ∧ c ≠ ['*', '*'] ∧
      ∀ x ∈ cs ++ [c], PlainName x) :
    ∃ pats : Patterns, ∀ fs : FS, fs.WF → ∀ p n, fs.get (loc ++ p) = some n →
      (p ∈ textMatches fs loc T ↔ ∃ g ∈ pats, g p = true) := by
  classical
  refine ⟨[fun p => decide (∃ t rooted cs, Counts ls t ∧ IsPattern t rooted cs false ∧
    PathLike NameMatches (if rooted then cs else ['*', '*'] :: cs) p false)], ?_⟩
  intro fs wf p n hn
  rw [C91_matches_partial wf hl hT (fun t ht => by
    obtain ⟨rooted, cs, c, h1, _, h2⟩ := hp t ht
    exact ⟨rooted, _, _, h1, h2⟩)]
  simp only [List.mem_singleton, exists_eq_left, decide_eq_true_eq]
  constructor
  · rintro ⟨t, rooted, cs, dirs, n', d, ht, hi, h1, h2, h3⟩
    obtain ⟨rooted', cs', c, h4, h5, h6⟩ := hp t ht
    obtain ⟨k1, -, k3⟩ := isPattern_det hi
    obtain ⟨m1, -, m3⟩ := isPattern_det h4
    have hcs : cs = cs' ++ [c] := k1.symm.trans m1
    have hdirs : dirs = false := k3.symm.trans m3
    subst hcs hdirs
    have hd : d = false := by
      cases rooted with
      | true => exact ((pathLike_snoc h5).1 h2).1
      | false =>
        have h2 : PathLike NameMatches ((['*', '*'] :: cs') ++ [c]) p d := h2
        exact ((pathLike_snoc h5).1 h2).1
    subst hd
    exact ⟨t, rooted, _, ht, hi, h2⟩
  · rintro ⟨t, rooted, cs, ht, hi, h2⟩
    exact ⟨t, rooted, cs, false, n, false, ht, hi, hn, h2, by simp⟩

/-! ### Examples -/

/-- `# c`, an empty line, ` *.t?t `, `/d/[ab]/`. -/
def exPatterns : Str := "# c\n\n *.t?t \n/d/[ab]/".toList

/-- A sync directory. -/
def exTree : FS :=
  [(["l".toList], .dir 1 8), (["l".toList, "x.txt".toList], .file 7 1 1), (["l".toList, "d".toList], .dir 1 8),
    (["l".toList, "d".toList, "y.tt".toList], .file 7 1 1), (["l".toList, "d".toList, "z.tat".toList], .file 7 1 1),
    (["l".toList, "d".toList, ".z.tat".toList], .file 7 1 1), (["l".toList, "d".toList, "a".toList], .dir 1 8),
    (["l".toList, "d".toList, "b".toList], .file 7 1 1)]

/-- What is matched. -/
example : textMatches exTree ["l".toList] exPatterns =
    [["x.txt".toList], ["d".toList, "z.tat".toList], ["d".toList, "a".toList]] := by decide +kernel

/-- The hypotheses of `C91_matches_partial` can be met. -/
example : exTree.WF ∧ (∀ c ∈ ["l".toList], NoWild c) ∧
    ∃ ls, LinesOf exPatterns ls ∧
      ∀ t, Counts ls t → ∃ rooted cs dirs, IsPattern t rooted cs dirs ∧ ∀ c ∈ cs, PlainName c := by
  refine ⟨⟨by decide +kernel, by decide +kernel, by decide +kernel, by decide +kernel⟩, by simp [NoWild], ?_⟩
  obtain ⟨ls, h⟩ := linesOf_exists exPatterns
  refine ⟨ls, h, ?_⟩
  intro t ht
  rw [← mem_patternLines h] at ht
  have h1 : patternLines exPatterns = ["*.t?t".toList, "/d/[ab]/".toList] := by decide +kernel
  rw [h1] at ht
  have g : ∀ c ∈ ["*.t?t".toList, "d".toList, "[ab]".toList], GoodName c := by decide +kernel
  rcases List.mem_cons.1 ht with rfl | ht
  · refine ⟨false, ["*.t?t".toList], false, ⟨rfl, by simp, fun c hc => g c (by simp_all)⟩, ?_⟩
    intro c hc
    rw [List.mem_singleton.1 hc]
    exact .char (by decide) (.char (by decide) (.char (by decide) (.char (by decide) (.char (by decide) .nil))))
  · rw [List.mem_singleton.1 ht]
    refine ⟨true, ["d".toList, "[ab]".toList], true, ⟨by decide +kernel, by simp, fun c hc => g c (by simp_all)⟩, ?_⟩
    intro c hc
    rcases List.mem_cons.1 hc with rfl | hc
    · exact .char (by decide) .nil
    · rw [List.mem_singleton.1 hc]
      exact .set (b := "ab".toList) (by decide) (by decide) (by decide) (by decide) .nil

/-- The same with a directory called `l[1]`. -/
def exWildEnv (w : FS) : Env :=
  { exEnvE with
    loc := ["l[1]".toList]
    patsOf := fun _ => [fun p => decide (p ∈ textMatches w ["l[1]".toList] "/s".toList)] }

/-- The exclude file says `/s`. -/
def exWild : FS :=
  [(["x".toList], .file 1 1 1), (["l[1]".toList], .dir 1 8), (["l[1]".toList, "s".toList], .file 7 4 1)]

def exWildWorld : World := { exWorld (exWildEnv exWild) [] [] [] 1000 with os := ⟨exWild, 1000, 0, fun n => n + 50⟩ }

/-- `init` uploads a file of this directory although the exclude file has its path. -/
theorem C91_uploaded_fails : (init (exWildEnv exWild) false exWildWorld).1 = .ok () ∧
    (init (exWildEnv exWild) false exWildWorld).2.os.fs.get ["r".toList, "s".toList] = some (.file 7 4 1) ∧
    textMatches exWild ["l[1]".toList] "/s".toList = [] ∧ exWild.get (["l[1]".toList] ++ ["s".toList]) = some (.file 7 4 1) := by
  decide +kernel

end Verif
