import Verif.ScenUnits.Gen
import Verif.Scenred.Examples

/-! Examples for the trees of shifted and of rescaled scenarios. -/

namespace PyF.ScenUnits
open PyF Scenred

/-- Root of a fraction whose numerator and denominator are squares. -/
def root (x : ℚ) : ℚ := (Nat.sqrt x.num.toNat : ℚ) / (Nat.sqrt x.den : ℚ)

/-- City-block metric, the first minimum. -/
def lib4 : Lib 4 where
  sq := root
  metric a b := (List.zipWith (fun x y => |x - y|) a b).sum
  argmin := firstMin
  argsort0 := firstMin

/-- Four scenarios of three steps: the first two steps tell scenarios 0, 1 from 2, 3 (spread `a`), the last one tells 0, 2 from 1, 3 (spread `b`). -/
def quad (a b : ℚ) : Samples 4 1 := fun t k _ =>
  if t = 0 then (if k = 0 ∨ k = 1 then a else -a)
  else if t = 1 then (if k = 0 ∨ k = 1 then a else -a)
  else (if k = 0 ∨ k = 2 then b else -b)

/-- One node, then two nodes. -/
def nodes122 (i : ℕ) : ℕ := if i = 0 then 1 else 2

/-- Values of the nodes with their times. -/
def vals (N : Except PyErr (List (Node (Fin 1 → ℚ)))) : Option (List (ℕ × ℚ)) := (N.map (List.map fun x : Node (Fin 1 → ℚ) => (x.t, x.v 0))).toOption

/-- **C270.** The same scenarios in two units (kilowatts, and gigawatts with spreads around `10^-6`): in the small unit the last step has two different values in the
tree, in the large one the step before. -/
theorem C270_witness :
    let S := quad (1 / 4000000) (4 / 1000000)
    let S' := rescaled 1000000 S
    (∀ t < 3, root (var S t 0) ^ 2 = var S t 0 ∧ root (var S' t 0) ^ 2 = var S' t 0)
      ∧ vals (tree lib4 3 nodes122 10 S) = some [(0, -1 / 4000000), (1, -1 / 4000000), (2, 1 / 250000), (2, -1 / 250000)]
      ∧ vals (tree lib4 3 nodes122 10 S') = some [(0, -1 / 4), (1, 1 / 4), (1, -1 / 4), (2, -4)] := by
  decide +kernel

/-- C269: a forecast added before, or after. -/
example : vals (tree lib4 3 nodes122 10 (quad 1 3)) = some [(0, -1), (1, 1), (1, -1), (2, -3)]
    ∧ vals (tree lib4 3 nodes122 10 (shifted (quad 1 3) fun t _ => 5 * t)) = some [(0, -1), (1, 6), (1, 4), (2, 7)] := by
  decide +kernel

/-- Values of the scenarios of the observations: two steps, two scenarios. -/
def svals (r : Except PyErr (List (ScenGen.Scens ℚ))) : Option (List (List (List ℚ))) :=
  (r.map (List.map fun x => (List.range 2).map fun s => (List.range 2).map fun k => x.val s k)).toOption

/-- C271: one observation, two steps, three levels; the quantiles are tripled and moved. -/
example :
    let u : ℕ → ℕ → ℕ → ℚ := fun _ s k => (s + k + 1) / 4
    let qs : List (List (List ℚ)) := [[[0, 1, 2], [-1, 0, 5]]]
    svals (ScenGen.predictScenarios 1 [1 / 4, 1 / 2, 3 / 4] 2 2 3 qs false none (.ok u) (fun _ _ => 0) (fun _ _ _ => 0)) = some [[[0, 1], [0, 5]]]
      ∧ svals (ScenGen.predictScenarios 1 [1 / 4, 1 / 2, 3 / 4] 2 2 3 (qs.mapIdx fun _ q => moved 3 (fun s => 10 * s) q) false none (.ok u) (fun _ _ => 0) (fun _ _ _ => 0))
        = some [[[0, 3], [10, 25]]] := by
  decide +kernel

end PyF.ScenUnits
