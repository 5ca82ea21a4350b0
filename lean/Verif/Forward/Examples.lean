import Verif.Forward.Props

/-!
Concrete calls, with numbers as values.
-/

namespace PyF.Forward

open PyF

/-- Defaults, constants and functions that can be told apart from the arguments used below. -/
def exW : World Nat where
  dflt := fun k p => 1000 + k.length * 100 + p.length
  lit := fun s => 5000 + s.length
  fn := fun s _ => 9000 + s.length

/-- A construction that succeeds, by keywords, through three classes: `FFNN(n_layers=3, q_vect=7, n_scen_fit=9)`. -/
example : ((run exW [ffnn, nn, scenarioGenerator] { pos := [], kw := [("n_layers", 3), ("q_vect", 7), ("n_scen_fit", 9)] }).toOption.map
    fun w => (attr w "n_layers", attr w "q_vect", attr w "n_scen_fit", attr w "n_hidden_x")) = some (some 3, some 7, some 9, some 1210) := by decide +kernel

example : Holds [ffnn, nn, scenarioGenerator] "n_scen_fit" "n_scen_fit" "ScenarioGenerator" := by
  have h := C248_kept [ffnn, nn, scenarioGenerator] (by decide +kernel) scenarioGenerator (by decide +kernel) "n_scen_fit" (by decide +kernel) (by decide +kernel)
  have e1 : field [ffnn, nn, scenarioGenerator] "n_scen_fit" = "n_scen_fit" := by decide +kernel
  have e2 : owner [ffnn, nn, scenarioGenerator] "n_scen_fit" = "ScenarioGenerator" := by decide +kernel
  rwa [e1, e2] at h

/-- By position: the fourth argument of `CausalInvertibleNN` becomes its embedding width; `n_hidden_y=50` ends up as a number of layers. -/
example : ((run exW [causalInvertibleNN, nn, scenarioGenerator] { pos := [1, 2, 3, 48], kw := [("n_hidden_y", 50)] }).toOption.map
    fun w => (attr w "n_hidden_x", attr w "num_embedding_layers", attr w "n_hidden_y")) = some (some 48, some 50, none) := by decide +kernel

/-- `LSTM_Forecaster(target_name, lstm_history, conditional_to_hour=0)` keeps the default of the base. -/
example : ((run exW [lstmForecaster, scenarioGenerator] { pos := [1, 24], kw := [("conditional_to_hour", 0), ("q_vect", 7)] }).toOption.map
    fun w => (attr w "conditional_to_hour", attr w "q_vect")) = some (some 2719, some 7) := by decide +kernel

/-- `CausalInvertibleNN(n_hidden_x=10)` and `FFNN(nn_module=1)` are refused. -/
example : (run exW [causalInvertibleNN, nn, scenarioGenerator] { pos := [], kw := [("n_in", 48), ("n_hidden_x", 10)] }).toOption = none ∧
    (run exW [ffnn, nn, scenarioGenerator] { pos := [], kw := [("nn_module", 1)] }).toOption = none := by decide +kernel

/-- A tree takes no logger. -/
example : (run exW [neuralGas, scenarioTree] { pos := [], kw := [("logger", 1)] }).toOption = none := by decide +kernel

/-- The experts of `HoltWintersMulti`. -/
example : ((expert exW fun s => s.length).toOption.map fun w => (attr w "constraints", attr w "alpha")) = some (some 2111, some 5) := by decide +kernel

/-- An accepted keyword call. -/
example : ∃ w, run exW [persistent, scenarioGenerator] { pos := [], kw := [("target_col", 1), ("copula_type", 2)] } = .ok w :=
  C250_keywords_accepted exW persistent [scenarioGenerator] (by decide +kernel) (by decide +kernel) _ (by decide +kernel) (by decide +kernel) (by decide +kernel)

end PyF.Forward
