import Verif.ScenGen.Model
import Mathlib.Algebra.Order.Group.Abs
import Mathlib.Tactic.Ring

/-!
Scenarios drawn twice with the same `random_state`.
-/

namespace PyF.ScenGen

open PyF

variable {K : Type} [Field K] [LinearOrder K]

/-- Two calls of `predict_scenarios` that fail in the same way or return, observation by observation, `a` and `b` related by `R`. -/
def Related (R : ℕ → Scens K → Scens K → Prop) : Except PyErr (List (Scens K)) → Except PyErr (List (Scens K)) → Prop
  | .error e, .error e' => e = e'
  | .ok l, .ok l' => l.length = l'.length ∧ ∀ t a b, l[t]? = some a → l'[t]? = some b → R t a b
  | _, _ => False

/-- **C332.** Two calls with the same `random_state`, hence the same samples of the copula, fail in the same way or return equally many scenarios of the same length whose
values differ by exactly the difference of the noise added from the global generator (and of the noise of the additional node). -/
theorem C332_repeat (nx : Nat) (levels : List K) (steps dim nq : Nat) (quantiles : List (List (List K))) (additional : Bool) (initObs : Option (List K))
    (u : Except PyErr (Nat → Nat → Nat → K)) (ini ini' : Nat → Nat → K) (noise noise' : Nat → Nat → Nat → K) :
    Related (fun t a b => a.rows = b.rows ∧ ∀ s k, a.val s k - b.val s k = noise t s k - noise' t s k + (if additional = true ∧ s = 0 then ini t k - ini' t k else 0))
      (predictScenarios nx levels steps dim nq quantiles additional initObs u ini noise)
      (predictScenarios nx levels steps dim nq quantiles additional initObs u ini' noise') := by
  unfold predictScenarios sampleScenarios
  by_cases h1 : levels.length ≠ nq
  · rw [if_pos h1, if_pos h1]; rfl
  rw [if_neg h1, if_neg h1]
  by_cases h2 : quantiles.length ≠ nx
  · rw [if_pos h2, if_pos h2]; rfl
  rw [if_neg h2, if_neg h2]
  cases u with
  | error e => rfl
  | ok u =>
    cases additional with
    | true =>
      simp only [if_true]
      by_cases h3 : (initObs.getD (List.replicate nx 0)).length ≠ nx
      · rw [if_pos h3, if_pos h3]; rfl
      rw [if_neg h3, if_neg h3]
      cases interpRows levels dim u 0 quantiles with
      | error e => rfl
      | ok fs =>
        refine ⟨by simp, fun t a b ha hb => ?_⟩
        rw [List.getElem?_mapIdx] at ha hb
        obtain ⟨f, hf, rfl⟩ := Option.map_eq_some_iff.1 ha
        rw [hf] at hb
        simp only [Option.map_some, Option.some.injEq] at hb
        subst hb
        refine ⟨rfl, fun s k => ?_⟩
        by_cases hs : s = 0
        · simp only [hs, if_true, and_self]; ring
        · simp only [hs, if_false, and_false]; ring
    | false =>
      simp only [Bool.false_eq_true, if_false]
      cases interpRows levels dim u 0 quantiles with
      | error e => rfl
      | ok fs =>
        refine ⟨by simp, fun t a b ha hb => ?_⟩
        rw [List.getElem?_mapIdx] at ha hb
        obtain ⟨f, hf, rfl⟩ := Option.map_eq_some_iff.1 ha
        rw [hf] at hb
        simp only [Option.map_some, Option.some.injEq] at hb
        subst hb
        refine ⟨rfl, fun s k => ?_⟩
        simp only [false_and, if_false]; ring

/-- **C332.** Without an additional node, such calls return the same value exactly where the same noise is drawn; with noise of at most `ε` they agree up to `2 * ε`. -/
theorem C332_close [IsStrictOrderedRing K] (nx : Nat) (levels : List K) (steps dim nq : Nat) (quantiles : List (List (List K))) (initObs : Option (List K))
    (u : Except PyErr (Nat → Nat → Nat → K)) (ini ini' : Nat → Nat → K) (noise noise' : Nat → Nat → Nat → K) (out out' : List (Scens K))
    (h : predictScenarios nx levels steps dim nq quantiles false initObs u ini noise = .ok out)
    (h' : predictScenarios nx levels steps dim nq quantiles false initObs u ini' noise' = .ok out') (t : ℕ) (a b : Scens K) (ha : out[t]? = some a) (hb : out'[t]? = some b)
    (s k : ℕ) :
    (a.val s k = b.val s k ↔ noise t s k = noise' t s k) ∧
    ∀ ε : K, |noise t s k| ≤ ε → |noise' t s k| ≤ ε → |a.val s k - b.val s k| ≤ 2 * ε := by
  have hr := C332_repeat nx levels steps dim nq quantiles false initObs u ini ini' noise noise'
  rw [h, h'] at hr
  have := (hr.2 t a b ha hb).2 s k
  simp only [Bool.false_eq_true, false_and, if_false, add_zero] at this
  refine ⟨by rw [← sub_eq_zero, this, sub_eq_zero], fun ε h1 h2 => ?_⟩
  rw [this]
  calc |noise t s k - noise' t s k| ≤ |noise t s k| + |noise' t s k| := abs_sub _ _
    _ ≤ ε + ε := add_le_add h1 h2
    _ = 2 * ε := by ring

end PyF.ScenGen
