import Verif.Tune.Props3

/-! Concrete instances of the hypotheses of the theorems on the search. -/

namespace PyF.Tune

open PyF

/-- A class with one parameter (name 10): it forecasts the parameter times the current value, one or two (name 11) steps ahead; the state counts the fitted rows. -/
def exCls : Cls ℕ ℕ where
  defaultTarget := none
  check := fun kw => if kw.pars 10 = none then .error .assertionError else .ok ()
  state0 := fun _ => 0
  nsa := fun kw => match kw.pars 11 with | some (.num q) => q.num.toNat | _ => 1
  reinit := true
  fitCore := fun _ st x => .ok (st + x.rows.length)
  predict := fun kw _ x =>
    match kw.targetName with
    | none => .error .typeError
    | some t =>
      match x.col t with
      | .error e => .error e
      | .ok y =>
        let a := match kw.pars 10 with | some (.num q) => q | _ => 0
        let n := match kw.pars 11 with | some (.num q) => q.num.toNat | _ => 1
        .ok (y.map (fun v => List.replicate n (a * v)))

/-- Ten rows, two columns 0 and 1, the second target constant. -/
def exFrame : Frame ℕ := ⟨[0, 1], [[1, 5], [2, 5], [4, 5], [8, 5], [16, 5], [32, 5], [64, 5], [128, 5], [256, 5], [512, 5]]⟩

/-- Keywords: target 0, parameter 10 equal to one half. -/
def exKw (ts : Option (List ℕ)) : Kw ℕ := ⟨some 0, ts, true, fun k => if k = 10 then some (.num (1 / 2)) else if k = 12 then some (.other 3) else none⟩

/-- Three trials. -/
def exTrials : List (List (ℕ × Val)) := [[(10, .num 1)], [(10, .num 2)], [(10, .num 3)]]

/-- The training part of 90 rows is one row short, that of 91 and 100 is not. -/
example : ntrain 90 = 62 ∧ ntrain 91 = 63 ∧ ntrain 100 = 70 := by decide +kernel

/-- C152: with one target, the best trial is the second, with score 0; the untuned parameter stays. -/
example : (match tune exCls exFrame exTrials true (exKw (some [0])) with
    | .ok (o, kw) => decide (o.attrs.pars 10 = some (.num 2) ∧ kw.pars 10 = some (.num 2) ∧ kw.pars 12 = some (.other 3) ∧ o.attrs.optimize = false ∧ o.attrs.targetName = some 0)
    | .error _ => false) = true := by decide +kernel

example : (match scoresPar exCls (exKw (some [0])) exFrame exTrials with | .ok s => decide (s = [some 40960, some 0, some 40960]) | .error _ => false) = true := by decide +kernel

/-- C155: with both targets the constant one dominates the choice among other trials. -/
example : (match scoresPar exCls (exKw (some [0, 1])) exFrame exTrials with | .ok s => decide (s = [some 20480, some (25 / 2), some 20530]) | .error _ => false) = true := by
  decide +kernel

/-- C153: the same search without processes fails at the second trial, and a single trial ends with the last target. -/
example : (match tune exCls exFrame exTrials false (exKw (some [0, 1])) with | .ok _ => false | .error e => decide (e = PyErr.unboundLocalError)) = true := by decide +kernel

example : (match tune exCls exFrame [[(10, .num 1)]] false (exKw (some [0, 1])) with
    | .ok (o, _) => decide (o.attrs.targetName = some 1 ∧ o.attrs.targets = some [1]) | .error _ => false) = true := by decide +kernel

/-- C154: with a horizon of three the test part of three rows is too short: all scores are NaN and the first trial is returned. -/
example : (match tune exCls exFrame exTrials true ({ exKw (some [0]) with pars := fun k => if k = 11 then some (.num 3) else none }) with
    | .ok (o, _) => decide (o.attrs.pars 10 = some (.num 1)) | .error _ => false) = true := by decide +kernel

example : (match scoreAR exCls ⟨exKw none, exKw none, 0⟩ exFrame 7 0 1 with | .ok s => decide (s = some (mse [[64], [128], [256]] [128, 256, 512] 1)) | .error _ => false) = true := by
  decide +kernel

/-- C156: the search is done once; a parameter set before it is lost. -/
example : (match mk exCls (exKw none) with
    | .ok o => (match fitObj exCls exTrials (o.setPars [(12, .other 9)]) exFrame with
      | .ok o' => decide (o'.attrs.pars 10 = some (.num 2) ∧ o'.attrs.pars 12 = some (.other 3) ∧ o'.attrs.optimize = false ∧ o'.st = 10)
      | .error _ => false)
    | .error _ => false) = true := by decide +kernel

/-- Names for the combined model: 10 alpha, 13, 14 the gammas, 11 the horizon, 15 a copied parameter. -/
def exNames : Names ℕ := ⟨10, 13, 14, 11, [15]⟩

example : exNames.Distinct := ⟨by decide, by decide, by decide, by decide, by decide, by decide⟩

/-- C157: two submodels with horizons 1 and 2 search for themselves; parameter 12 is dropped, parameter 15 kept. -/
example : (match fitMulti exCls exNames (fun i => if i = 0 then exTrials else [[(10, .num 3)], [(10, .num 4)]])
      ⟨⟨some 0, none, true, fun k => if k = 12 then some (.other 3) else if k = 15 then some (.other 4) else none⟩, [1, 2], none, none, none, true⟩ exFrame with
    | .ok (kw, [m1, m2]) => decide (m1.attrs.pars 10 = some (.num 2) ∧ m2.attrs.pars 10 = some (.num 3) ∧ m2.attrs.pars 11 = some (.num 2) ∧
        m1.attrs.pars 13 = some (.num (1 / 100)) ∧ m1.attrs.pars 12 = none ∧ m1.attrs.pars 15 = some (.other 4) ∧ m1.attrs.optimize = false ∧ kw.alphas = some [2, 3])
    | _ => false) = true := by decide +kernel

end PyF.Tune
