import Verif.FkRun.Props
import Verif.Fast.Examples

/-! Concrete instances of the hypotheses of C204-C208. -/

namespace PyF.FkRun

/-- Two experts on frames given as lists of observations: the last value, and the last value plus what was learnt. -/
def exE : Experts ℝ (List ℝ) 2 :=
  { fit := fun e f => e + f.sum, predict := fun e f j i _ => if j = 0 then f.getD i 0 else f.getD i 0 + e,
    len := List.length, obs := fun f i => f.getD i 0 }

/-- Histories of two values and the given horizon. -/
noncomputable def exC (nsa : ℕ) : Cfg 2 := { m := 2, nsa := nsa, r := 1, q := 1, pinv := fun M => M }

example : 0 < exE.len [1, 2, 3] := by simp [exE]

-- All experts exact at row 1 on a constant frame, one step ahead.
example : (1 : ℕ) < exE.len [5, 5, 5] ∧ (exC 1).nsa ≤ 1 ∧ 1 ≤ (exC 1).m ∧ (fresh (exC 1)).Q.isSome ∧ (fresh (exC 1)).R.isSome ∧
    Spec.AllExact (exC 1).nsa (exE.predict (expertsOf exE { experts := 0, states := fresh (exC 1) } [5, 5, 5] false) [5, 5, 5])
      (exE.obs [5, 5, 5] 1) 1 := by
  refine ⟨by simp [exE], by simp [exC], by simp [exC], by simp [fresh], by simp [fresh], ?_⟩
  intro j sa hsa
  have : sa = 0 := by simp [exC] at hsa; exact hsa
  subst this
  simp [exE, expertsOf]

-- The forecast of that row is NaN.
example : ∃ o' rows, call (exC 1) exE { experts := 0, states := fresh (exC 1) } [5, 5, 5] false = .ok (o', rows) ∧ rows[1]? = some none := by
  obtain ⟨o', rows, h, hr, -⟩ := C205_all_exact (exC 1) exE { experts := 0, states := fresh (exC 1) } [5, 5, 5] false 1 (by simp [exE])
    (by simp [exC]) (by simp [exC]) (by simp [fresh]) (by simp [fresh]) (by
      intro j sa hsa
      have : sa = 0 := by simp [exC] at hsa; exact hsa
      subst this
      simp [exE, expertsOf])
  exact ⟨o', rows, h, hr⟩

-- A horizon of three with `m = 2`: frames of up to five rows.
example : (exC 3).m < (exC 3).nsa ∧ ∀ p ∈ [([1, 2, 3, 4, 5], true), ([6, 7], false)],
    0 < exE.len p.1 ∧ ∀ t, t * (exC 3).m + 1 < exE.len p.1 → t * (exC 3).m < (exC 3).nsa := by
  refine ⟨by simp [exC], ?_⟩
  intro p hp
  simp only [List.mem_cons, List.not_mem_nil, or_false] at hp
  rcases hp with rfl | rfl
  · refine ⟨by simp [exE], ?_⟩
    intro t ht
    simp [exE, exC] at ht ⊢
    omega
  · refine ⟨by simp [exE], ?_⟩
    intro t ht
    simp [exE, exC] at ht ⊢
    omega

-- After the fit on 4, 2 the window of the first row is 2, 4: a later value is used for an earlier row.
example : (match Fast.fFit (Fast.exCfg 1 1) (Fast.fFresh (Fast.exCfg 1 1)) [4, 2] with
    | .ok r => decide (r.1.w.length = 2) && (match Fast.recentHistory [4, 2] r.1.w (0 + 1 - 2) 0 with | .ok w => decide (w = [2, 4]) | .error _ => false)
    | .error _ => false) = true := by decide +kernel

example : 0 < exE.len [1, 2] ∧ exE.len [1, 2] ≤ (exC 1).m ∧ ¬ exE.len [1, 2, 3] ≤ (exC 1).m := by simp [exE, exC]

end PyF.FkRun
