import Verif.Props.C07_Increment
/-
C08: decay scales every priority and keeps the ranking.
-/
namespace Verif
open ADB ALocal
variable {h : Str → Int}

/-- `adjust_all(c)` multiplies every priority by `c` and changes nothing else,
whatever the state of the database. -/
theorem C08_scales (db : LocalDB) (c : Rat) (p : Path) :
    DB.getPathInfo h (LocalDB.adjustAll db c) p
      = (DB.getPathInfo h db p).map (fun i => (i.1, ⟨i.2.priority * c, i.2.loc⟩)) := by
  unfold DB.getPathInfo LocalDB.adjustAll
  rw [List.find?_map]
  simp only [Option.map_map]
  rfl

/-- The rows and their order are kept. -/
theorem C08_rows (db : LocalDB) (c : Rat) (r : Path) (d l : Option Bool) :
    LocalDB.getPaths h (LocalDB.adjustAll db c) r d l
      = (LocalDB.getPaths h db r d l).map
          (fun n => ⟨n.id, n.path, n.directory, ⟨n.data.priority * c, n.data.loc⟩⟩) := by
  unfold LocalDB.getPaths DB.getRows LocalDB.adjustAll
  simp only [List.filter_map]
  rfl

/-- For `c > 0` the ranking of any two paths stays. -/
theorem C08_order (db : LocalDB) {c : Rat} (hc : 0 < c) {p q : Path} {i j i' j' : Bool × PData}
    (hi : DB.getPathInfo h db p = some i) (hj : DB.getPathInfo h db q = some j)
    (hi' : DB.getPathInfo h (LocalDB.adjustAll db c) p = some i')
    (hj' : DB.getPathInfo h (LocalDB.adjustAll db c) q = some j') :
    (i'.2.priority < j'.2.priority ↔ i.2.priority < j.2.priority) ∧
      (i'.2.priority = j'.2.priority ↔ i.2.priority = j.2.priority) := by
  rw [C08_scales, hi, Option.map_some, Option.some.injEq] at hi'
  rw [C08_scales, hj, Option.map_some, Option.some.injEq] at hj'
  subst hi'; subst hj'
  exact ⟨Rat.mul_lt_mul_right hc, mul_left_inj' (ne_of_gt hc)⟩

/-- Applying factors in turn is applying their product. -/
theorem C08_product (db : LocalDB) (cs : List Rat) :
    cs.foldl LocalDB.adjustAll db = LocalDB.adjustAll db cs.prod := by
  induction cs generalizing db with
  | nil =>
    simp only [List.foldl_nil, List.prod_nil, LocalDB.adjustAll, mul_one]
    obtain ⟨ns, cl, co⟩ := db
    simp
  | cons c cs ih =>
    rw [List.foldl_cons, ih, List.prod_cons]
    simp only [LocalDB.adjustAll, List.map_map]
    congr 1
    apply List.map_congr_left
    intro n _
    simp [mul_assoc]

/-- Half-life decay applied twice to the example. -/
example : (DB.getPathInfo exHash ([1/2, 1/2].foldl LocalDB.adjustAll exDB) ["x".toList]).map
    (fun i => i.2.priority) = some (1/2) := by
  decide +kernel

end Verif
