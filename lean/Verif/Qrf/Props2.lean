import Verif.Qrf.Model
import Mathlib.Logic.Function.Basic
import Mathlib.Data.List.Basic
import Mathlib.Algebra.Order.Ring.Rat
import Mathlib.Tactic.Linarith

namespace PyF.Qrf

open PyF

/-! ### C181: which constructor arguments reach the forests -/

/-- The dictionary handed to the forests has an entry. -/
def Has (d : List (String × Val)) (k : String) (v : Val) : Prop := (k, v) ∈ d

theorem qrfPars_congr (a b : String → Val) (h : ∀ k ∈ copied, a k = b k) (hq : a "q_vect" = b "q_vect") : qrfPars a = qrfPars b := by
  unfold qrfPars
  rw [hq]
  congr 1
  apply List.map_congr_left
  intro k hk
  rw [h k hk]

/-- C181. `max_depth` has no effect on the parameters of any forest, single-step or global. -/
theorem C181_max_depth (a : String → Val) (v : Val) (workers : ℚ) :
    qrfPars (Function.update a "max_depth" v) = qrfPars a ∧
    globalPars workers (qrfPars (Function.update a "max_depth" v)) = globalPars workers (qrfPars a) := by
  have : qrfPars (Function.update a "max_depth" v) = qrfPars a := by
    apply qrfPars_congr
    · intro k hk
      rw [Function.update_of_ne]
      rintro rfl
      simp [copied] at hk
    · rw [Function.update_of_ne (by decide)]
  exact ⟨this, by rw [this]⟩

/-- C181. `max_depth` is never a parameter of a forest. -/
theorem C181_no_depth (a : String → Val) (v : Val) (workers : ℚ) :
    ¬ Has (qrfPars a) "max_depth" v ∧ ¬ Has (globalPars workers (qrfPars a)) "max_depth" v := by
  have key : ∀ p ∈ qrfPars a, p.1 ≠ "max_depth" := by
    intro p hp
    unfold qrfPars at hp
    rcases List.mem_append.1 hp with h | h
    · obtain ⟨k, hk, rfl⟩ := List.mem_map.1 h
      rintro rfl
      simp [copied] at hk
    · rw [List.mem_singleton] at h
      rw [h]
      show "default_quantiles" ≠ "max_depth"
      decide
  refine ⟨fun h => key _ h rfl, fun h => ?_⟩
  obtain ⟨p, hp, he⟩ := List.mem_map.1 h
  apply key p hp
  split_ifs at he
  · have := congrArg Prod.fst he; simpa using this
  · rw [he]

/-- The arguments of the forest that the constructor documents and passes on, other than `n_jobs`. -/
def passed : List String :=
  ["n_estimators", "criterion", "min_samples_split", "min_samples_leaf", "max_samples_leaf", "min_weight_fraction_leaf", "max_features", "max_leaf_nodes",
   "min_impurity_decrease", "bootstrap", "oob_score", "random_state", "verbose", "warm_start", "ccp_alpha", "max_samples"]

/-- C181. Every other argument reaches both kinds of forest under its own name, with the value given and no other. -/
theorem C181_passed (a : String → Val) (k : String) (hk : k ∈ passed) (v : Val) (workers : ℚ) :
    (Has (qrfPars a) k v ↔ v = a k) ∧ (Has (globalPars workers (qrfPars a)) k v ↔ v = a k) := by
  have hc : k ∈ copied := by
    revert k; simp [passed, copied]
  have hj : k ≠ "n_jobs" := by rintro rfl; simp [passed] at hk
  have hd : k ≠ "default_quantiles" := by rintro rfl; simp [passed] at hk
  have h1 : Has (qrfPars a) k v ↔ v = a k := by
    unfold Has qrfPars
    rw [List.mem_append]
    constructor
    · rintro (h | h)
      · obtain ⟨k', -, he⟩ := List.mem_map.1 h
        cases he; rfl
      · rw [List.mem_singleton] at h
        exact absurd (congrArg Prod.fst h) hd
    · rintro rfl
      exact Or.inl (List.mem_map.2 ⟨k, hc, rfl⟩)
  refine ⟨h1, ?_⟩
  rw [← h1]
  unfold Has globalPars
  constructor
  · intro h
    obtain ⟨p, hp, he⟩ := List.mem_map.1 h
    split_ifs at he with hp1
    · have := congrArg Prod.fst he
      exact absurd (this.symm.trans hp1) hj
    · rw [← he]; exact hp
  · intro h
    refine List.mem_map.2 ⟨(k, v), h, ?_⟩
    simp only
    rw [if_neg hj]

/-- C181. `n_jobs` reaches the single-step forests unchanged; the global forest gets it times the number of workers when it is positive. -/
theorem C181_n_jobs (a : String → Val) (n workers : ℚ) (hn : a "n_jobs" = .num n) :
    Has (qrfPars a) "n_jobs" (.num n) ∧ Has (globalPars workers (qrfPars a)) "n_jobs" (.num (if 0 < n then n * workers else n)) := by
  have h1 : Has (qrfPars a) "n_jobs" (.num n) := by
    unfold Has qrfPars
    rw [List.mem_append]
    exact Or.inl (List.mem_map.2 ⟨"n_jobs", by simp [copied], by rw [hn]⟩)
  refine ⟨h1, List.mem_map.2 ⟨("n_jobs", .num n), h1, ?_⟩⟩
  simp only [if_true, scaleJobs]
  split_ifs <;> rfl

/-- C181. The forest's default quantiles are the levels of the forecaster, or 'mean' without levels. -/
theorem C181_levels (a : String → Val) (v : Val) :
    Has (qrfPars a) "default_quantiles" v ↔ (a "q_vect" = .none ∧ v = .str "mean") ∨ (a "q_vect" ≠ .none ∧ v = a "q_vect") := by
  unfold Has qrfPars
  rw [List.mem_append]
  have : ("default_quantiles", v) ∉ copied.map (fun k => (k, a k)) := by
    intro h
    obtain ⟨k, hk, he⟩ := List.mem_map.1 h
    have := congrArg Prod.fst he
    simp only at this
    subst this
    simp [copied] at hk
  rw [or_iff_right this, List.mem_singleton]
  cases hq : a "q_vect" <;> simp [defaultQ]

/-- C178. Without targets (and without single-step models) the fit succeeds, but there is nothing to stack in `predict`. -/
theorem C178_no_targets {R P D : Type} [Inhabited R] (E : Env R P D) (par : Bool) (vr : Option ℚ) (pars parsG : D) (x : List R) (y : List (List ℚ)) (w : Option (List ℚ)) :
    ∃ s, fit E ⟨0, par, vr⟩ pars parsG 0 x y w = .ok s ∧ ∀ (x' : List R) (q : Option QK), predict E ⟨0, par, vr⟩ s x' ⟨q, none⟩ = .error .valueError :=
  ⟨_, rfl, fun _ _ => rfl⟩

end PyF.Qrf
