import Verif.HwSearch.Model
import Verif.Tune.Lemmas

namespace PyF.HwSearch

open PyF PyF.Tune

variable {G : Type}

theorem testPars_get (gen : Gen G) (g : G) (n i : ℕ) (h : i < n) :
    (testPars gen g n)[i]? = some (number gen g (3 * i), number gen g (3 * i + 1), number gen g (3 * i + 2)) := by
  unfold testPars
  rw [List.getElem?_map, List.getElem?_range h]
  rfl

theorem testPars_length (gen : Gen G) (g : G) (n : ℕ) : (testPars gen g n).length = n := by simp [testPars]

/-- The search in terms of the candidates. -/
theorem randSearch_ok (gen : Gen G) (err : ℚ × ℚ × ℚ → Score) (n : ℕ) (g g' : G) (p : ℚ × ℚ × ℚ) (h : randSearch gen err n g = .ok (p, g'))
    (hnan : ∀ q ∈ testPars gen (gen.seed 0) n, err q ≠ none) :
    ∃ b v, b < n ∧ (testPars gen (gen.seed 0) n)[b]? = some p ∧ err p = some v ∧
      ∀ j q, (testPars gen (gen.seed 0) n)[j]? = some q → ∃ w, err q = some w ∧ v ≤ w ∧ (j < b → v < w) := by
  unfold randSearch at h
  have hn : none ∉ (testPars gen (gen.seed 0) n).map err := by
    intro hm
    obtain ⟨q, hq, he⟩ := List.mem_map.1 hm
    exact hnan q hq he
  cases ha : argmin ((testPars gen (gen.seed 0) n).map err) with
  | error e => rw [ha] at h; cases h
  | ok b =>
    rw [ha] at h
    simp only [Except.ok.injEq, Prod.mk.injEq] at h
    obtain ⟨v, hv, hmin⟩ := argmin_min _ b ha hn
    rw [List.getElem?_map] at hv
    obtain ⟨q0, hq0, hv0⟩ := Option.map_eq_some_iff.1 hv
    have hb : b < n := by
      have := (List.getElem?_eq_some_iff.1 hq0).1
      rwa [testPars_length] at this
    have hp : q0 = p := by
      rw [← h.1, List.getD_eq_getElem?_getD, hq0]
      rfl
    subst hp
    refine ⟨b, v, hb, hq0, hv0, fun j q hj => ?_⟩
    have hne := hnan q (List.mem_iff_getElem?.2 ⟨j, hj⟩)
    obtain ⟨w, hw⟩ := Option.ne_none_iff_exists'.1 hne
    refine ⟨w, hw, hmin j w ?_⟩
    rw [List.getElem?_map, hj, Option.map_some, hw]

/-- **C331.** `rand_search` succeeds exactly with a positive budget. If no candidate gives NaN, the parameters are those of the candidate with the least error. A larger
budget adds candidates after the same ones, so the error never rises. -/
theorem C331_budget (gen : Gen G) (err : ℚ × ℚ × ℚ → Score) (n : ℕ) (g : G) :
    ((∃ r, randSearch gen err n g = .ok r) ↔ 1 ≤ n) ∧
    ∀ (m : ℕ) (h : G) (p q : ℚ × ℚ × ℚ) (g' h' : G), n ≤ m → (∀ q ∈ testPars gen (gen.seed 0) m, err q ≠ none) →
      randSearch gen err n g = .ok (p, g') → randSearch gen err m h = .ok (q, h') →
      ∃ v w, err p = some v ∧ err q = some w ∧ w ≤ v ∧ (w = v → q = p) ∧ ∀ c ∈ testPars gen (gen.seed 0) m, ∃ z, err c = some z ∧ w ≤ z := by
  constructor
  · unfold randSearch
    have hx := argmin_exists ((testPars gen (gen.seed 0) n).map err)
    have hl : (testPars gen (gen.seed 0) n).map err ≠ [] ↔ 1 ≤ n := by
      rw [← List.length_pos_iff, List.length_map, testPars_length]
      omega
    rw [hl] at hx
    rw [← hx]
    cases argmin ((testPars gen (gen.seed 0) n).map err) with
    | error e => simp
    | ok b => simp
  · intro m h p q g' h' hnm hnan hp hq
    have hnan' : ∀ q ∈ testPars gen (gen.seed 0) n, err q ≠ none := by
      intro q hq
      obtain ⟨i, hi⟩ := List.mem_iff_getElem?.1 hq
      have hlt := (List.getElem?_eq_some_iff.1 hi).1
      rw [testPars_length] at hlt
      rw [testPars_get _ _ _ _ hlt] at hi
      exact hnan q (List.mem_iff_getElem?.2 ⟨i, by rw [testPars_get _ _ _ _ (by omega)]; exact hi⟩)
    obtain ⟨b, v, hb, hpb, hv, hmin⟩ := randSearch_ok gen err n g g' p hp hnan'
    obtain ⟨c, w, hc, hqc, hw, hmin'⟩ := randSearch_ok gen err m h h' q hq hnan
    have hpb' : (testPars gen (gen.seed 0) m)[b]? = some p := by
      rw [testPars_get _ _ _ _ (by omega), ← hpb, testPars_get _ _ _ _ hb]
    obtain ⟨z, hz, hwz, hlt⟩ := hmin' b p hpb'
    rw [hv] at hz
    cases hz
    refine ⟨v, w, hv, hw, hwz, fun he => ?_, fun c hc => ?_⟩
    · have hcb : c ≤ b := by
        by_contra hcb
        have := hlt (by omega)
        rw [he] at this
        exact absurd this (lt_irrefl _)
      have hqc' : (testPars gen (gen.seed 0) n)[c]? = some q := by
        rw [testPars_get _ _ _ _ (by omega), ← hqc, testPars_get _ _ _ _ hc]
      obtain ⟨z, hz, _, hlt'⟩ := hmin c q hqc'
      rw [hw] at hz
      cases hz
      have hbc : b ≤ c := by
        by_contra hbc
        have := hlt' (by omega)
        rw [he] at this
        exact absurd this (lt_irrefl _)
      have : b = c := by omega
      subst this
      rw [hpb'] at hqc
      exact (Option.some.inj hqc).symm
    · obtain ⟨j, hj⟩ := List.mem_iff_getElem?.1 hc
      obtain ⟨z, hz, hwz, _⟩ := hmin' j c hj
      exact ⟨z, hz, hwz⟩

/-- **C331** (defect). The search restarts the global generator: whatever was drawn or seeded before and whatever the data, the numbers drawn after two searches with
the same budget are the same, and a search with `k` candidates more only skips the next `3 * k` of them. -/
theorem C331_restarts (gen : Gen G) (err err' : ℚ × ℚ × ℚ → Score) (n k : ℕ) (g h g' h' : G) (p q : ℚ × ℚ × ℚ)
    (hp : randSearch gen err n g = .ok (p, g')) (hq : randSearch gen err' (n + k) h = .ok (q, h')) (i : ℕ) :
    number gen h' i = number gen g' (3 * k + i) := by
  have key : ∀ (err : ℚ × ℚ × ℚ → Score) (n : ℕ) (g g' : G) (p : ℚ × ℚ × ℚ), randSearch gen err n g = .ok (p, g') → g' = after gen (gen.seed 0) (3 * n) := by
    intro err n g g' p h
    unfold randSearch at h
    cases ha : argmin ((testPars gen (gen.seed 0) n).map err) with
    | error e => rw [ha] at h; cases h
    | ok b =>
      rw [ha] at h
      simp only [Except.ok.injEq, Prod.mk.injEq] at h
      exact h.2.symm
  rw [key _ _ _ _ _ hp, key _ _ _ _ _ hq]
  unfold number after
  rw [← Function.iterate_add_apply, ← Function.iterate_add_apply]
  congr 3
  omega

/-- C331 (stream): the candidates are the numbers drawn one after the other from the generator seeded with 0, three at a time. -/
theorem C331_stream (gen : Gen G) (n : ℕ) : testPars gen (gen.seed 0) 0 = [] ∧ ∀ g : G, testPars gen g (n + 1) =
    ((gen.uniform g).1, (gen.uniform (gen.uniform g).2).1, (gen.uniform (gen.uniform (gen.uniform g).2).2).1)
      :: testPars gen (gen.uniform (gen.uniform (gen.uniform g).2).2).2 n := by
  refine ⟨rfl, fun g => ?_⟩
  unfold testPars
  rw [List.range_succ_eq_map, List.map_cons, List.map_map]
  congr 1

end PyF.HwSearch
