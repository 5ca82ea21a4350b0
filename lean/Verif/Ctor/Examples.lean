import Verif.Ctor.Props4
import Verif.Ctor.Props3

/-! Concrete instances of the hypotheses of the theorems on constructor keywords. -/

namespace PyF.Ctor

open PyF

/-- The dictionary with the given entries. -/
def ofList (l : List (String × Val)) : Dict := fun k => l.lookup k

/-- The exact grid. -/
def exLin (m n j : ℕ) : ℚ := 1 + ((m : ℚ) - 1) * j / n

/-- The exact grid meets what is assumed of the floating point one. -/
example : LinOk (exLin 24 4) 24 4 :=
  ⟨fun i j h => by have : (i : ℚ) ≤ j := by exact_mod_cast h
                   unfold exLin; simp only [Nat.cast_ofNat]; linarith, by norm_num [exLin], by norm_num [exLin]⟩

/-- C158: a misspelled parameter is accepted and the default is used. -/
example : (match Pred.fourier.build (ofList [("aplha", .num (1 / 3)), ("cov_est_method", .str "shrunk"), ("logger", .other 1), ("init", .str "x")]) with
    | .ok o => decide (o.attrs "alpha" = some (.num (4 / 5)) ∧ o.init "aplha" = some (.num (1 / 3)) ∧ o.gen.sg.copula "cov_est_method" = some (.str "shrunk") ∧
        o.gen.sg.copula "logger" = none ∧ o.gen.sg.tree "init" = none)
    | .error _ => false) = true := by decide +kernel

example : "aplha" ∉ known .fourier := by decide +kernel

/-- With another tree class `init` does reach the tree. -/
example : (match Pred.fk.build (ofList [("tree_type", .str "NeuralGas"), ("init", .str "x"), ("n_scen_fit", .num 5)]) with
    | .ok o => decide (o.gen.sg.tree "init" = some (.str "x") ∧ o.gen.own "n_scen_fit" = some (.num 5)) | .error _ => false) = true := by decide +kernel

/-- Refused keywords and values. -/
example : (match Pred.fk.build (ofList [("max_scengen_rows", .num 10)]) with | .ok _ => false | .error e => decide (e = PyErr.typeError)) = true := by decide +kernel
example : (match Pred.fk.build (ofList [("alpha", .num 1)]) with | .ok _ => false | .error e => decide (e = PyErr.assertionError)) = true := by decide +kernel
example : (match Pred.fk.build (ofList [("copula_type", .str "x")]) with | .ok _ => false | .error e => decide (e = PyErr.keyError)) = true := by decide +kernel

/-- C160: windows of four experts. -/
example : windows (exLin 24 4) 4 3 8 = [8, 12, 18, 24] := by decide +kernel
example : windows (exLin 10 8) 8 8 8 = [8, 8, 8, 8, 8, 8, 8, 10] := by decide +kernel

/-- C159: `alphas` and `periodicity` do not reach the experts, `alpha` does. -/
example : (match multi exLin .fk none (ofList [("alphas", .other 7), ("alpha", .num (1 / 3)), ("n_sa", .num 3), ("periodicity", .num 8), ("r", .num 2), ("n_predictors", .num 2)]) with
    | .ok [e1, e2] => decide (e1.attrs "alpha" = some (.num (1 / 3)) ∧ e1.attrs "periodicity" = some (.num 3) ∧ e1.attrs "r" = some (.num (1 / 10)) ∧ e1.attrs "m" = some (.num 12) ∧
        e2.attrs "m" = some (.num 24) ∧ e1.attrs "optimize_hyperpars" = some (.bool true))
    | _ => false) = true := by decide +kernel

/-- C161: after a search, with `nodes_at_step` and another copula given. -/
example : (match tunedMulti exLin .fourier (fun i => if i = 0 then [("alpha", .num (1 / 4)), ("omega", .num (1 / 2)), ("n_harmonics", .num 2)] else [("alpha", .num (1 / 8))]) none
      (ofList [("n_predictors", .num 2), ("optimize_hyperpars", .bool true), ("nodes_at_step", .other 4), ("copula_type", .str "ConditionalGaussianCopula")]) with
    | .ok [e1, e2] => decide (e1.attrs "alpha" = some (.num (1 / 4)) ∧ e2.attrs "alpha" = some (.num (1 / 8)) ∧ e2.attrs "m" = some (.num 24) ∧
        e1.attrs "optimize_hyperpars" = some (.bool false) ∧ e1.gen.own "nodes_at_step" = some .null ∧ e1.gen.sg.own "copula_type" = none)
    | _ => false) = true := by decide +kernel

/-- C158: what is not given gets its default; a window of zero samples is refused. -/
example : (match Pred.fourier.build (ofList [("alpha", .num (1 / 3)), ("target_name", .str "load")]) with
    | .ok o => decide (o.attrs "alpha" = some (.num (1 / 3)) ∧ o.attrs "targets_names" = some (.strs ["load"]) ∧ o.attrs "m" = some (value .fourier (fun _ => none) "m"))
    | _ => false) = true := by decide +kernel
example : (match Pred.fk.build (ofList [("m", .num 0)]) with | .ok _ => false | .error _ => true) = true := by decide +kernel

end PyF.Ctor
