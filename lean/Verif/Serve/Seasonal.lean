import Verif.Serve.Props
import Mathlib.Tactic.Linarith

namespace PyF.Serve
open PyF PyF.Quantile PyF.Bench PyF.Hankel

/-- C239: a seasonal persistent forecaster asked for one row answers with its stored season, whatever the row: the value of the
row only matters for a horizon one longer than the season, and there only for the last step. -/
theorem C239_one_row (state : List ℚ) (nsa : Nat) (h1 : 1 ≤ nsa) (h2 : nsa ≤ state.length + 1) (a : ℚ) :
    ∃ t, seasPredict state nsa [a] = .ok t ∧ t.length = nsa ∧ (∀ c ∈ t, c.length = 1) ∧
      ∀ j, j < nsa → entry t 0 j = if j < state.length then state[j]? else some a := by
  obtain ⟨t, ht⟩ := (C35_predict state [a] nsa).1.2 ⟨h1, Or.inr h2⟩
  obtain ⟨p1, p2, p3⟩ := (C35_predict state [a] nsa).2 t ht
  refine ⟨t, ht, p1, p2, ?_⟩
  intro j hj
  rw [(p3 0 j (by simp) hj).2, Nat.zero_add]
  split
  · rename_i hl
    rw [List.getElem?_append_left hl]
  · rename_i hl
    have : j = state.length := by omega
    rw [this, List.getElem?_append_right (le_refl _), Nat.sub_self]
    rfl

/-- C239 (row by row against at once): serving the rows of a frame one at a time gives the forecasts of the whole frame exactly
if, within the horizon, the season followed by the frame looks the same from every row. -/
theorem C239_alone_iff (state x : List ℚ) (nsa : Nat) (h1 : 1 ≤ nsa) (h2 : nsa ≤ state.length) (t : List (List ℚ))
    (ht : seasPredict state nsa x = .ok t) :
    (∀ i (hi : i < x.length), ∃ u, seasPredict state nsa [x[i]] = .ok u ∧ ∀ j, j < nsa → entry u 0 j = entry t i j) ↔
      ∀ i j, i < x.length → j < nsa → (state ++ x)[i + j]? = state[j]? := by
  have hb := ((C35_predict state x nsa).2 t ht).2.2
  constructor
  · intro h i j hi hj
    obtain ⟨u, hu, hj'⟩ := h i hi
    obtain ⟨u', hu', _, _, he⟩ := C239_one_row state nsa h1 (by omega) x[i]
    rw [hu] at hu'
    cases hu'
    rw [← (hb i j hi hj).2, ← hj' j hj, he j hj, if_pos (by omega)]
  · intro h i hi
    obtain ⟨u, hu, _, _, he⟩ := C239_one_row state nsa h1 (by omega) x[i]
    refine ⟨u, hu, ?_⟩
    intro j hj
    rw [he j hj, if_pos (by omega), (hb i j hi hj).2, h i j hi hj]

/-- The errors of step `j + 1` a seasonal persistent forecaster without a validation set measures itself by. -/
def wrapErrors (s nsa : Nat) (y : List ℚ) (j : Nat) : List ℚ :=
  (List.range (y.length - nsa)).map (fun (t : Nat) =>
    y.getD (t + 1 + j) 0 - (if t + j < s then y.getD (y.length - s + (t + j)) 0 else y.getD (t + j - s) 0))

/-- C240: fitted without a validation set, a seasonal persistent forecaster measures its errors with a season taken from the
end of the data put in front of its beginning. -/
theorem C240_error_table (s nsa : Nat) (qv y : List ℚ) (hs : 1 ≤ s) (hsy : s ≤ y.length) (hn : 1 ≤ nsa) (hns : nsa ≤ s + 1) (hny : nsa < y.length)
    (hq : ∀ q ∈ qv, 0 ≤ q ∧ q ≤ 1) :
    seasFitAll s nsa qv y = .ok (y.drop (y.length - s), (List.range nsa).map (fun j => qv.map (quantileVal (wrapErrors s nsa y j)))) := by
  unfold seasFitAll seasFit
  have hst : lastN s y = y.drop (y.length - s) := by unfold lastN; rw [if_neg (by omega)]
  have hl : (lastN s y).length = s := by rw [hst, List.length_drop]; omega
  have hxl : (y.take (y.length - nsa)).length = y.length - nsa := by rw [List.length_take]; omega
  obtain ⟨p, hp⟩ := (C35_predict (lastN s y) (y.take (y.length - nsa)) nsa).1.2 ⟨hn, Or.inr (by omega)⟩
  obtain ⟨p1, p2, p3⟩ := (C35_predict (lastN s y) (y.take (y.length - nsa)) nsa).2 p hp
  rw [hxl] at p2 p3
  have hf : ∀ i j, i < y.length - nsa → j < nsa → entry p i j =
      some (if i + j < s then y.getD (y.length - s + (i + j)) 0 else y.getD (i + j - s) 0) := by
    intro i j hi hj
    obtain ⟨q1, q2⟩ := p3 i j hi hj
    rw [q2]
    split
    · rename_i hij
      rw [List.getElem?_append_left (by omega), hst, List.getElem?_drop, List.getD_eq_getElem?_getD, List.getElem?_eq_getElem (by omega)]
      rfl
    · rename_i hij
      rw [List.getElem?_append_right (by omega), hl, List.getElem?_take, if_pos (by omega), List.getD_eq_getElem?_getD,
        List.getElem?_eq_getElem (by omega)]
      rfl
  have hq' : ¬ qv.any (fun q => q < 0 || 1 < q) = true := by rw [levels_ok hq]; simp
  rw [fitDistr_char _ nsa qv y _ hn p hp p1 p2 hf, if_neg hq', if_neg (by omega), hst]
  rfl

/-- C240 (consequence): on a signal of period `s + 1`, which the forecaster predicts without error on rows that follow its
data, all fitted errors vanish for every such signal exactly if the length of the data is a multiple of the period. -/
theorem C240_exact_iff (s nsa N : Nat) (hs : 1 ≤ s) (hsN : s ≤ N) (hn : 1 ≤ nsa) (hnN : nsa < N) :
    (∀ sig : Nat → ℚ, (∀ t, sig (t + (s + 1)) = sig t) → ∀ j, j < nsa → ∀ e ∈ wrapErrors s nsa ((List.range N).map sig) j, e = 0) ↔ (s + 1) ∣ N := by
  have hget : ∀ (sig : Nat → ℚ) (i : Nat), i < N → ((List.range N).map sig).getD i 0 = sig i := by
    intro sig i hi
    rw [List.getD_eq_getElem?_getD, List.getElem?_map, List.getElem?_range hi]
    rfl
  constructor
  · intro h
    have h0 := h (fun t => ((t % (s + 1) : Nat) : ℚ)) (fun t => by simp) 0 (by omega)
      (((1 % (s + 1) : Nat) : ℚ) - (((N - s) % (s + 1) : Nat) : ℚ)) (by
        unfold wrapErrors
        refine List.mem_map.2 ⟨0, List.mem_range.2 (by simp; omega), ?_⟩
        rw [if_pos (by omega), hget _ _ (by omega), hget _ _ (by simp; omega)]
        simp)
    rw [sub_eq_zero, Nat.cast_inj] at h0
    have h1 : (1 + s) % (s + 1) = (N - s + s) % (s + 1) := by rw [Nat.add_mod, h0, ← Nat.add_mod]
    rw [Nat.sub_add_cancel hsN, Nat.add_comm 1 s, Nat.mod_self] at h1
    exact Nat.dvd_of_mod_eq_zero h1.symm
  · rintro ⟨k, hk⟩ sig hper j hj e he
    have hperk : ∀ k t, sig (t + (s + 1) * k) = sig t := by
      intro k
      induction k with
      | zero => intro t; simp
      | succ k ih => intro t; rw [Nat.mul_succ, ← Nat.add_assoc, hper, ih]
    unfold wrapErrors at he
    obtain ⟨t, ht, rfl⟩ := List.mem_map.1 he
    rw [List.length_map, List.length_range] at ht ⊢
    rw [List.mem_range] at ht
    rw [hget _ _ (by omega), sub_eq_zero]
    split
    · rename_i htj
      have hk1 : 1 ≤ k := by
        rcases Nat.eq_zero_or_pos k with rfl | h
        · simp at hk; omega
        · exact h
      obtain ⟨k, rfl⟩ : ∃ m, k = m + 1 := ⟨k - 1, by omega⟩
      rw [hget _ _ (by omega)]
      have : N - s + (t + j) = (t + 1 + j) + (s + 1) * k := by rw [hk, Nat.mul_succ]; omega
      rw [this, hperk]
    · rename_i htj
      rw [hget _ _ (by omega)]
      have : t + 1 + j = (t + j - s) + (s + 1) := by omega
      rw [this, hper]

end PyF.Serve
