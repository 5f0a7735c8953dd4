import Verif.FS
/-
Lemmas about the file system.
-/
namespace Verif
namespace FS

/-! ### Reading after changing -/

@[simp] theorem get_nil (fs : FS) : fs.get [] = some (.dir 0 8) := by simp [get]

theorem get_of_ne {fs : FS} {p : Path} (h : p ≠ []) :
    fs.get p = (fs.find? (fun e => decide (e.1 = p))).map Prod.snd := by simp [get, h]

theorem find_rm_ne (fs : FS) {p q : Path} (h : q ≠ p) :
    (fs.rm p).find? (fun e => decide (e.1 = q)) = fs.find? (fun e => decide (e.1 = q)) := by
  unfold rm
  rw [List.find?_filter]
  congr 1
  funext e
  by_cases he : e.1 = q
  · simp [he, h]
  · simp [he]

theorem get_rm_ne (fs : FS) {p q : Path} (h : q ≠ p) : (fs.rm p).get q = fs.get q := by
  unfold get
  rw [find_rm_ne fs h]

theorem get_rm_self (fs : FS) {p : Path} (h : p ≠ []) : (fs.rm p).get p = none := by
  rw [get_of_ne h]
  have : (fs.rm p).find? (fun e => decide (e.1 = p)) = none := by
    rw [List.find?_eq_none]
    intro e he
    have := (List.mem_filter.1 he).2
    simpa using this
  rw [this]; rfl

theorem get_set_self (fs : FS) {p : Path} (h : p ≠ []) (n : Node) : (fs.set p n).get p = some n := by
  rw [get_of_ne h]
  simp [set]

theorem get_set_ne (fs : FS) {p q : Path} (h : q ≠ p) (n : Node) :
    (fs.set p n).get q = fs.get q := by
  unfold get set
  rw [List.find?_cons_of_neg (by simpa using (Ne.symm h)), find_rm_ne fs h]

theorem get_rmTree (fs : FS) {p : Path} (h : p ≠ []) (q : Path) :
    (fs.rmTree p).get q = if p <+: q then none else fs.get q := by
  by_cases hq : q = []
  · subst hq
    have : ¬ p <+: [] := by simpa using h
    simp [this]
  · rw [get_of_ne hq, get_of_ne hq]
    unfold rmTree
    rw [List.find?_filter]
    split
    · rename_i hp
      have : fs.find? (fun e => decide ((!p.isPrefixOf e.1) = true ∧ decide (e.1 = q) = true)) = none := by
        rw [List.find?_eq_none]
        intro e _
        by_cases he : e.1 = q
        · subst he; simp [List.isPrefixOf_iff_prefix.2 hp]
        · simp [he]
      rw [this]; rfl
    · rename_i hp
      congr 2
      funext e
      by_cases he : e.1 = q
      · subst he
        have : p.isPrefixOf e.1 = false := by
          rw [Bool.eq_false_iff]; intro h; exact hp (List.isPrefixOf_iff_prefix.1 h)
        simp [this]
      · simp [he]

/-! ### Paths -/

theorem isDir_iff {fs : FS} {p : Path} : fs.isDir p = true ↔ ∃ m b, fs.get p = some (.dir m b) := by
  unfold isDir
  cases h : fs.get p with
  | none => simp
  | some n => cases n <;> simp [Node.isDir]

theorem isDir_congr {fs fs' : FS} {p : Path} (h : fs.get p = fs'.get p) : fs.isDir p = fs'.isDir p := by
  unfold isDir; rw [h]

theorem mem_takes {p q : Path} :
    q ∈ (List.range p.length).map p.take ↔ q <+: p ∧ q ≠ p := by
  simp only [List.mem_map, List.mem_range]
  constructor
  · rintro ⟨k, hk, rfl⟩
    refine ⟨List.take_prefix _ _, ?_⟩
    intro h
    have := congrArg List.length h
    simp at this
    omega
  · rintro ⟨h, hne⟩
    refine ⟨q.length, ?_, (List.prefix_iff_eq_take.1 h).symm⟩
    rcases Nat.lt_or_eq_of_le h.length_le with h' | h'
    · exact h'
    · exact absurd (h.eq_of_length h') hne

theorem pathErr_none_iff {fs : FS} {p : Path} :
    fs.pathErr p = none ↔ ∀ q, q <+: p → q ≠ p → fs.isDir q = true := by
  unfold pathErr
  rw [List.findSome?_eq_none_iff]
  constructor
  · intro h q hq hne
    have := h q (mem_takes.2 ⟨hq, hne⟩)
    unfold isDir
    cases hg : fs.get q with
    | none => simp [hg] at this
    | some n => cases n <;> simp [hg, Node.isDir] at this ⊢
  · intro h q hq
    obtain ⟨h1, h2⟩ := mem_takes.1 hq
    obtain ⟨m, b, hg⟩ := isDir_iff.1 (h q h1 h2)
    simp [hg]

theorem pathErr_congr {fs fs' : FS} {p : Path}
    (h : ∀ q, q <+: p → q ≠ p → fs.get q = fs'.get q) : fs.pathErr p = fs'.pathErr p := by
  unfold pathErr
  apply findSome?_congr'
  intro q hq
  obtain ⟨h1, h2⟩ := mem_takes.1 hq
  rw [h q h1 h2]
where
  findSome?_congr' {α β : Type} {f g : α → Option β} {l : List α} (h : ∀ x ∈ l, f x = g x) :
      l.findSome? f = l.findSome? g := by
    induction l with
    | nil => rfl
    | cons a l ih =>
      rw [List.findSome?_cons, List.findSome?_cons, h a (by simp), ih (fun x hx => h x (by simp [hx]))]

theorem lstat_ok_iff {fs : FS} {p : Path} {n : Node} :
    fs.lstat p = .ok n ↔ fs.pathErr p = none ∧ fs.get p = some n := by
  unfold lstat
  cases fs.pathErr p with
  | some e => simp
  | none => cases fs.get p <;> simp

/-- `dropLast` is a proper prefix. -/
theorem dropLast_proper {p : Path} (h : p ≠ []) : p.dropLast <+: p ∧ p.dropLast ≠ p := by
  refine ⟨List.dropLast_prefix p, ?_⟩
  intro he
  have := congrArg List.length he
  have h' := List.length_pos_iff.2 h
  simp at this
  omega

theorem prefix_dropLast {p q : Path} (h : q <+: p) (hne : q ≠ p) : q <+: p.dropLast := by
  obtain ⟨t, rfl⟩ := h
  have : t ≠ [] := by rintro rfl; simp at hne
  rw [List.dropLast_append_of_ne_nil this]
  exact List.prefix_append _ _

/-! ### Well-formed file systems -/

/-- Every path is listed once, has good names, and lies in a directory. -/
structure WF (fs : FS) : Prop where
  nodup : (fs.map Prod.fst).Nodup
  ne_nil : ∀ e ∈ fs, e.1 ≠ []
  good : ∀ e ∈ fs, GoodPath e.1
  closed : ∀ e ∈ fs, fs.isDir e.1.dropLast = true

theorem find_mem {fs : FS} {p : Path} {n : Node}
    (h : (fs.find? (fun e => decide (e.1 = p))).map Prod.snd = some n) : (p, n) ∈ fs := by
  rw [Option.map_eq_some_iff] at h
  obtain ⟨e, he, rfl⟩ := h
  have h1 := List.mem_of_find?_eq_some he
  have h2 := List.find?_some he
  simp at h2
  subst h2
  exact h1

theorem mem_of_get {fs : FS} {p : Path} {n : Node} (hp : p ≠ []) (h : fs.get p = some n) :
    (p, n) ∈ fs := find_mem (by rwa [get_of_ne hp] at h)

theorem find_of_mem {fs : FS} (hn : (fs.map Prod.fst).Nodup) {p : Path} {n : Node}
    (h : (p, n) ∈ fs) : (fs.find? (fun e => decide (e.1 = p))).map Prod.snd = some n := by
  induction fs with
  | nil => simp at h
  | cons e fs ih =>
    rw [List.map_cons, List.nodup_cons] at hn
    rcases List.mem_cons.1 h with rfl | h
    · simp
    · have hne : e.1 ≠ p := by
        rintro rfl
        exact hn.1 (List.mem_map.2 ⟨_, h, rfl⟩)
      rw [List.find?_cons_of_neg (by simpa using hne)]
      exact ih hn.2 h

theorem WF.mem_iff {fs : FS} (w : fs.WF) {p : Path} (hp : p ≠ []) {n : Node} :
    (p, n) ∈ fs ↔ fs.get p = some n :=
  ⟨fun h => by rw [get_of_ne hp]; exact find_of_mem w.nodup h, mem_of_get hp⟩

theorem WF.get_of_mem {fs : FS} (w : fs.WF) {p : Path} {n : Node} (h : (p, n) ∈ fs) :
    fs.get p = some n := (w.mem_iff (w.ne_nil _ h)).1 h

theorem WF.goodPath {fs : FS} (w : fs.WF) {p : Path} {n : Node} (h : fs.get p = some n) : GoodPath p := by
  by_cases hp : p = []
  · subst hp; intro c hc; simp at hc
  · exact w.good _ (mem_of_get hp h)

theorem WF.parent {fs : FS} (w : fs.WF) {p : Path} {n : Node} (h : fs.get p = some n) (hp : p ≠ []) :
    fs.isDir p.dropLast = true := w.closed _ (mem_of_get hp h)

theorem WF.isDir_prefix {fs : FS} (w : fs.WF) {p : Path} {n : Node} (h : fs.get p = some n) :
    ∀ q, q <+: p → q ≠ p → fs.isDir q = true := by
  intro q hq hne
  obtain ⟨t, rfl⟩ := hq
  induction hk : t.length generalizing t n with
  | zero =>
    have : t = [] := List.eq_nil_of_length_eq_zero hk
    subst this; simp at hne
  | succ k ih =>
    have ht : t ≠ [] := by rintro rfl; simp at hk
    have hd := w.parent h (by simp [ht])
    rw [List.dropLast_append_of_ne_nil ht] at hd
    by_cases ht' : t.dropLast = []
    · simpa [ht'] using hd
    · obtain ⟨m, b, hg⟩ := isDir_iff.1 hd
      exact ih t.dropLast hg (by simpa using ht') (by simp [hk])

theorem WF.pathErr {fs : FS} (w : fs.WF) {p : Path} {n : Node} (h : fs.get p = some n) :
    fs.pathErr p = none := pathErr_none_iff.2 (w.isDir_prefix h)

theorem WF.lstat_iff {fs : FS} (w : fs.WF) {p : Path} {n : Node} :
    fs.lstat p = .ok n ↔ fs.get p = some n := by
  rw [lstat_ok_iff]
  exact ⟨And.right, fun h => ⟨w.pathErr h, h⟩⟩

/-- Below something that is not a directory there is nothing. -/
theorem WF.none_below {fs : FS} (w : fs.WF) {p q : Path} (hd : fs.isDir p = false) (hpq : p <+: q)
    (hne : p ≠ q) : fs.get q = none := by
  cases h : fs.get q with
  | none => rfl
  | some n =>
    have := w.isDir_prefix h p hpq hne
    rw [hd] at this
    cases this

theorem mem_below {fs : FS} {root p : Path} {n : Node} :
    (p, n) ∈ fs.below root ↔ (root ++ p, n) ∈ fs ∧ p ≠ [] := by
  unfold below
  rw [List.mem_filterMap]
  constructor
  · rintro ⟨e, he, h⟩
    split at h
    · rename_i hc
      obtain ⟨t, ht⟩ := List.isPrefixOf_iff_prefix.1 hc.1
      cases h
      have h1 : root ++ e.1.drop root.length = e.1 := by rw [← ht]; simp
      rw [h1]
      refine ⟨he, ?_⟩
      intro h0
      rw [h0, List.append_nil] at h1
      exact hc.2 h1.symm
    · cases h
  · rintro ⟨h, hp⟩
    refine ⟨_, h, ?_⟩
    rw [if_pos]
    · simp
    · exact ⟨List.isPrefixOf_iff_prefix.2 (List.prefix_append _ _), by simpa using hp⟩

theorem WF.mem_below_iff {fs : FS} (w : fs.WF) {root p : Path} {n : Node} :
    (p, n) ∈ fs.below root ↔ fs.get (root ++ p) = some n ∧ p ≠ [] := by
  rw [mem_below]
  constructor
  · rintro ⟨h, hp⟩; exact ⟨(w.mem_iff (by simp [hp])).1 h, hp⟩
  · rintro ⟨h, hp⟩; exact ⟨(w.mem_iff (by simp [hp])).2 h, hp⟩

theorem below_nil_iff {fs : FS} (w : fs.WF) {p : Path} :
    (fs.below p).isEmpty = true ↔ ∀ q, p <+: q → p ≠ q → fs.get q = none := by
  rw [List.isEmpty_iff]
  constructor
  · intro h q hq hne
    obtain ⟨t, rfl⟩ := hq
    cases hg : fs.get (p ++ t) with
    | none => rfl
    | some n =>
      have : (t, n) ∈ fs.below p := w.mem_below_iff.2 ⟨hg, by rintro rfl; simp at hne⟩
      rw [h] at this; cases this
  · intro h
    rw [List.eq_nil_iff_forall_not_mem]
    rintro ⟨t, n⟩ ht
    obtain ⟨h1, h2⟩ := w.mem_below_iff.1 ht
    rw [h _ (List.prefix_append _ _) (by simpa using h2)] at h1
    cases h1

/-! ### Well-formedness is kept -/

theorem map_rm (fs : FS) (p : Path) :
    (fs.rm p).map Prod.fst = (fs.map Prod.fst).filter (fun q => decide (q ≠ p)) := by
  unfold rm; rw [List.filter_map]; rfl

theorem WF.of_get {fs fs' : FS} (hn : (fs'.map Prod.fst).Nodup) (hnil : ∀ e ∈ fs', e.1 ≠ [])
    (hg : ∀ e ∈ fs', GoodPath e.1)
    (hc : ∀ p n, p ≠ [] → fs'.get p = some n → fs'.isDir p.dropLast = true) : fs'.WF :=
  ⟨hn, hnil, hg, fun e he => hc e.1 e.2 (hnil e he) (by
    rw [get_of_ne (hnil e he)]; exact find_of_mem hn he)⟩

theorem WF.rm {fs : FS} (w : fs.WF) {p : Path} (h : ∀ q, p <+: q → p ≠ q → fs.get q = none) :
    (fs.rm p).WF := by
  apply WF.of_get (fs := fs)
  · rw [map_rm]; exact w.nodup.filter _
  · intro e he; exact w.ne_nil e (List.mem_filter.1 he).1
  · intro e he; exact w.good e (List.mem_filter.1 he).1
  · intro q n hq hgq
    have hqp : q ≠ p := by
      rintro rfl
      rw [get_rm_self fs hq] at hgq; cases hgq
    rw [get_rm_ne fs hqp] at hgq
    have hd := w.parent hgq hq
    have hne : q.dropLast ≠ p := by
      rintro rfl
      rw [h q (dropLast_proper hq).1 (dropLast_proper hq).2] at hgq
      cases hgq
    rw [isDir_congr (get_rm_ne fs hne)]
    exact hd

theorem WF.set {fs : FS} (w : fs.WF) {p : Path} {n : Node} (hp : p ≠ []) (hgood : GoodPath p)
    (hpar : fs.isDir p.dropLast = true)
    (h : n.isDir = true ∨ ∀ q, p <+: q → p ≠ q → fs.get q = none) : (fs.set p n).WF := by
  apply WF.of_get (fs := fs)
  · show (p :: (fs.rm p).map Prod.fst).Nodup
    rw [List.nodup_cons, map_rm]
    exact ⟨by simp, w.nodup.filter _⟩
  · intro e he
    rcases List.mem_cons.1 he with rfl | he
    · exact hp
    · exact w.ne_nil e (List.mem_filter.1 he).1
  · intro e he
    rcases List.mem_cons.1 he with rfl | he
    · exact hgood
    · exact w.good e (List.mem_filter.1 he).1
  · intro q m hq hgq
    by_cases hqp : q = p
    · subst hqp
      rw [isDir_congr (get_set_ne fs (dropLast_proper hq).2 n)]
      exact hpar
    · rw [get_set_ne fs hqp] at hgq
      have hd := w.parent hgq hq
      by_cases hne : q.dropLast = p
      · subst hne
        rcases h with h | h
        · unfold isDir; rw [get_set_self fs hp]; exact h
        · rw [h q (dropLast_proper hq).1 (dropLast_proper hq).2] at hgq; cases hgq
      · rw [isDir_congr (get_set_ne fs hne n)]
        exact hd

theorem WF.rmTree {fs : FS} (w : fs.WF) {p : Path} (hp : p ≠ []) : (fs.rmTree p).WF := by
  apply WF.of_get (fs := fs)
  · unfold FS.rmTree
    exact w.nodup.sublist (List.Sublist.map _ List.filter_sublist)
  · intro e he; exact w.ne_nil e (List.mem_filter.1 he).1
  · intro e he; exact w.good e (List.mem_filter.1 he).1
  · intro q n hq hgq
    rw [get_rmTree fs hp] at hgq
    split at hgq
    · cases hgq
    · rename_i hpq
      have hd := w.parent hgq hq
      have : ¬ p <+: q.dropLast := fun h => hpq (h.trans (List.dropLast_prefix q))
      unfold isDir
      rw [get_rmTree fs hp, if_neg this]
      exact hd

/-! ### What the calls do -/

theorem remove_ok {fs fs' : FS} {p : Path} (h : fs.remove p = .ok fs') :
    ∃ n, fs.pathErr p = none ∧ fs.get p = some n ∧ n.isDir = false ∧ fs' = fs.rm p := by
  unfold remove at h
  cases hl : fs.lstat p with
  | error e => simp [hl] at h
  | ok n =>
    obtain ⟨h1, h2⟩ := lstat_ok_iff.1 hl
    cases n <;> simp [hl] at h
    · exact ⟨_, h1, h2, rfl, h.symm⟩
    · exact ⟨_, h1, h2, rfl, h.symm⟩

theorem rmdir_ok {fs fs' : FS} {p : Path} (h : fs.rmdir p = .ok fs') :
    ∃ m b, fs.pathErr p = none ∧ fs.get p = some (.dir m b) ∧ (fs.below p).isEmpty = true ∧
      fs' = fs.rm p := by
  unfold rmdir at h
  cases hl : fs.lstat p with
  | error e => simp [hl] at h
  | ok n =>
    obtain ⟨h1, h2⟩ := lstat_ok_iff.1 hl
    cases n with
    | dir m b =>
      simp only [hl] at h
      split at h
      · rename_i hb
        cases h
        exact ⟨m, b, h1, h2, hb, rfl⟩
      · cases h
    | _ => simp [hl] at h

theorem create_ok {fs fs' : FS} {p : Path} {n : Node} (h : fs.create p n = .ok fs') :
    fs.pathErr p = none ∧ fs.get p = none ∧ fs' = fs.set p n := by
  unfold create at h
  cases hl : fs.lstat p with
  | ok n => simp [hl] at h
  | error e =>
    cases hpe : fs.pathErr p with
    | some e' => simp [hl, hpe] at h
    | none =>
      simp only [hl, hpe] at h
      cases h
      refine ⟨rfl, ?_, rfl⟩
      cases hg : fs.get p with
      | none => rfl
      | some m => rw [lstat_ok_iff.2 ⟨hpe, hg⟩] at hl; cases hl

theorem create_exists {fs : FS} {p : Path} {n : Node} (h : fs.create p n = .error .exists_) :
    ∃ m, fs.pathErr p = none ∧ fs.get p = some m := by
  unfold create at h
  cases hl : fs.lstat p with
  | ok m => exact ⟨m, lstat_ok_iff.1 hl⟩
  | error e =>
    exfalso
    cases hpe : fs.pathErr p with
    | some e' =>
      simp only [hl, hpe] at h
      have : e = e' := by
        unfold lstat at hl; rw [hpe] at hl; cases hl; rfl
      subst this
      cases h
      unfold FS.pathErr at hpe
      obtain ⟨q, _, hq⟩ := List.exists_of_findSome?_eq_some hpe
      split at hq <;> cases hq
    | none => simp [hl, hpe] at h

theorem create_isSome {fs : FS} {p : Path} {n : Node} (hp : fs.pathErr p = none)
    (h : fs.get p = none) : fs.create p n = .ok (fs.set p n) := by
  unfold create lstat
  simp [hp, h]

theorem WF.create {fs fs' : FS} (w : fs.WF) {p : Path} {n : Node} (hg : GoodPath p)
    (h : fs.create p n = .ok fs') : fs'.WF := by
  obtain ⟨h1, h2, rfl⟩ := create_ok h
  have hp : p ≠ [] := by rintro rfl; simp at h2
  refine w.set hp hg ?_ (Or.inr ?_)
  · exact pathErr_none_iff.1 h1 _ (dropLast_proper hp).1 (dropLast_proper hp).2
  · intro q hq hne
    exact w.none_below (by unfold isDir; rw [h2]; rfl) hq hne

theorem WF.remove {fs fs' : FS} (w : fs.WF) {p : Path} (h : fs.remove p = .ok fs') : fs'.WF := by
  obtain ⟨n, h1, h2, h3, rfl⟩ := remove_ok h
  refine w.rm (fun q hq hne => w.none_below ?_ hq hne)
  unfold isDir; rw [h2]; simpa using h3

theorem WF.rmdir {fs fs' : FS} (w : fs.WF) {p : Path} (h : fs.rmdir p = .ok fs') : fs'.WF := by
  obtain ⟨m, b, h1, h2, h3, rfl⟩ := rmdir_ok h
  exact w.rm ((below_nil_iff w).1 h3)

theorem remove_ne_nil {fs fs' : FS} {p : Path} (h : fs.remove p = .ok fs') : p ≠ [] := by
  obtain ⟨n, _, h2, h3, _⟩ := remove_ok h
  rintro rfl
  simp at h2; subst h2; simp [Node.isDir] at h3

/-! ### Following links -/

theorem follow_nonlink {fs : FS} {p : Path} (h : fs.pathErr p = none)
    (hl : ∀ t m, fs.get p ≠ some (.link t m)) (k : Nat) : fs.follow (k + 1) p = .ok p := by
  unfold follow
  rw [h]
  dsimp only
  split
  · rename_i t m hg; exact absurd hg (hl _ _)
  · rfl

theorem follow_link {fs : FS} {p : Path} {t : Str} {m : Int} (h : fs.pathErr p = none)
    (hl : fs.get p = some (.link t m)) (k : Nat) : fs.follow (k + 1) p = fs.follow k (linkDest p t) := by
  rw [follow]
  simp [h, hl]

theorem stat_nonlink {fs : FS} {p : Path} {n : Node} (h : fs.pathErr p = none)
    (hg : fs.get p = some n) (hl : n.isLink = false) : fs.stat p = .ok (p, n) := by
  unfold stat
  rw [follow_nonlink h]
  · simp [hg]
  · intro t m h'; rw [hg] at h'; cases h'; simp [Node.isLink] at hl

theorem stat_none {fs : FS} {p : Path} (hg : fs.get p = none) : ∃ e, fs.stat p = .error e := by
  unfold stat
  cases hp : fs.pathErr p with
  | some e => exact ⟨e, by rw [follow]; simp [hp]⟩
  | none =>
    rw [follow_nonlink hp (by simp [hg])]
    simp [hg]

/-- A link to `q`, which is not a link. -/
theorem stat_link {fs : FS} {p q : Path} {t : Str} {m : Int} {n : Node} (h : fs.pathErr p = none)
    (hl : fs.get p = some (.link t m)) (hd : linkDest p t = q) (hq : fs.pathErr q = none)
    (hg : fs.get q = some n) (hn : n.isLink = false) : fs.stat p = .ok (q, n) := by
  unfold stat
  rw [follow_link h hl, hd, follow_nonlink hq]
  · simp [hg]
  · intro t m h'; rw [hg] at h'; cases h'; simp [Node.isLink] at hn

theorem follow_get {fs : FS} : ∀ {k : Nat} {p q : Path}, fs.follow k p = .ok q →
    fs.pathErr q = none ∧ ∀ t m, fs.get q ≠ some (.link t m)
  | 0, p, q, h => by simp [follow] at h
  | k + 1, p, q, h => by
    rw [follow] at h
    cases hp : fs.pathErr p with
    | some e => simp [hp] at h
    | none =>
      simp only [hp] at h
      split at h
      · exact follow_get h
      · rename_i hn
        cases h
        exact ⟨hp, fun t m h' => hn t m h'⟩

theorem stat_ok {fs : FS} {p q : Path} {n : Node} (h : fs.stat p = .ok (q, n)) :
    fs.get q = some n ∧ fs.pathErr q = none ∧ n.isLink = false := by
  unfold stat at h
  cases hf : fs.follow 40 p with
  | error e => simp [hf] at h
  | ok r =>
    simp only [hf] at h
    cases hg : fs.get r with
    | none => simp [hg] at h
    | some m =>
      simp only [hg] at h
      cases h
      obtain ⟨h1, h2⟩ := follow_get hf
      refine ⟨hg, h1, ?_⟩
      cases n <;> simp [Node.isLink]
      exact h2 _ _ hg

theorem split_absStr {q : Path} (h : GoodPath q) : walk [] (Posix.split (absStr q)) = q := by
  by_cases hq : q = []
  · subst hq; decide
  · have h1 : Posix.split (absStr q) = [] :: Posix.split (toStr q) := by simp [absStr, Posix.split]
    rw [h1]
    have h2 : Posix.split (toStr q) = q := Posix.split_intercalate q hq (fun c hc => (h c hc).2.1)
    rw [h2]
    simp [walk]
    simpa using walk_goodPath [] q h

/-- The target text of a link that the program makes leads to the path it was made from. -/
theorem linkDest_abs {q : Path} (h : GoodPath q) (p : Path) : linkDest p (absStr q) = q := by
  unfold linkDest
  rw [if_pos (by simp [Posix.isabs, absStr])]
  exact split_absStr h

end FS
end Verif
