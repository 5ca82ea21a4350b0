import Verif.Statsmodels.Model
import Verif.Bench.Props
import Mathlib.Tactic.Linarith
import Mathlib.Tactic.Ring
import Mathlib.Tactic.FieldSimp
import Mathlib.Tactic.Positivity

namespace PyF.Statsmodels
open PyF

variable {M O : Type}

/-- The model after a list of observations, each taken in by `append` or, where that is refused, by `apply`. -/
def after (L : Lib M O) (m : M) (ys : List O) : M := ys.foldl (fun m y => (L.append m y).getD (L.apply m y)) m

theorem update_eq (L : Lib M O) (m : M) (y : O) : update L m y = (L.append m y).getD (L.apply m y) := by
  unfold update
  cases L.append m y <;> rfl

theorem forecast_rows (L : Lib M O) (n : Nat) : ∀ (y : List O) (m : M),
    getForecasts L n m y = (List.range y.length).map (fun (i : Nat) => L.forecast (after L m (y.take i)) n) := by
  intro y
  induction y with
  | nil => intro m; rfl
  | cons a y ih =>
    intro m
    rw [getForecasts, update_eq, ih, List.length_cons, List.range_succ_eq_map, List.map_cons, List.map_map]
    rfl

/-- C41: there is one row of forecasts per observation; row `i` is the forecast of the model updated with the observations
strictly before row `i`. -/
theorem C41_row_uses_strict_past (L : Lib M O) (n : Nat) (m : M) (y : List O) :
    (getForecasts L n m y).length = y.length ∧
      ∀ i, i < y.length → (getForecasts L n m y)[i]? = some (L.forecast (after L m (y.take i)) n) := by
  rw [forecast_rows]
  refine ⟨by simp, ?_⟩
  intro i hi
  rw [List.getElem?_map, List.getElem?_range hi]
  rfl

/-- C41 (causality): rows of forecasts depend on earlier observations only; in particular row 0 does not depend on the input
at all. -/
theorem C41_causal (L : Lib M O) (n : Nat) (m : M) (y z : List O) (i : Nat) (hy : i < y.length) (hz : i < z.length) (h : y.take i = z.take i) :
    (getForecasts L n m y)[i]? = (getForecasts L n m z)[i]? := by
  rw [(C41_row_uses_strict_past L n m y).2 i hy, (C41_row_uses_strict_past L n m z).2 i hz, h]

/-- What statsmodels promises: `extend` and `restart` move the time index, and `restart` depends on the fitted parameters
only, which neither of them changes. -/
structure Lawful (T : Timed M) : Prop where
  next_extend : ∀ m y, T.next (T.extend m y) = T.next m + 1
  next_restart : ∀ m t y, T.next (T.restart m t y) = t + 1
  restart_extend : ∀ m y t z, T.restart (T.extend m y) t z = T.restart m t z
  restart_restart : ∀ m t y t' z, T.restart (T.restart m t y) t' z = T.restart m t' z

theorem frame_length : ∀ (y : List ℚ) (t0 : ℤ), (frame t0 y).length = y.length
  | [], _ => rfl
  | _ :: ys, t0 => by simp [frame, frame_length ys]

theorem frame_take : ∀ (y : List ℚ) (t0 : ℤ) (i : Nat), (frame t0 y).take i = frame t0 (y.take i)
  | [], _, _ => by simp [frame]
  | _ :: _, _, 0 => by simp [frame]
  | _ :: ys, t0, i + 1 => by simp [frame, frame_take ys]

theorem frame_snd : ∀ (y : List ℚ) (t0 : ℤ), (frame t0 y).map Prod.snd = y
  | [], _ => rfl
  | _ :: ys, t0 => by simp [frame, frame_snd ys]

theorem after_following (T : Timed M) (hT : Lawful T) : ∀ (y : List ℚ) (m : M), after T.lib m (frame (T.next m) y) = y.foldl T.extend m := by
  intro y
  induction y with
  | nil => intro m; rfl
  | cons a y ih =>
    intro m
    have h := ih (T.extend m a)
    rw [hT.next_extend] at h
    rw [List.foldl_cons, ← h]
    unfold after
    rw [frame, List.foldl_cons]
    simp [Timed.lib]

/-- C41 (frames that follow): on a frame starting right after the data of the model, row `i` is the forecast of the model
extended with the observations before row `i`. -/
theorem C41_following_frame (T : Timed M) (hT : Lawful T) (n : Nat) (m : M) (y : List ℚ) (i : Nat) (hi : i < y.length) :
    (getForecasts T.lib n m (frame (T.next m) y))[i]? = some (T.forecast ((y.take i).foldl T.extend m) n) := by
  rw [(C41_row_uses_strict_past T.lib n m (frame (T.next m) y)).2 i (by rw [frame_length]; exact hi), frame_take, after_following T hT]
  rfl

/-- C41 (any other frame): on a frame starting at another time, row 0 is still the forecast for the time after the data of the
model, and every later row is the forecast of the fitted parameters started afresh on the frame's own observations. -/
theorem C41_other_frame (T : Timed M) (hT : Lawful T) (n : Nat) (m : M) (t0 : ℤ) (h0 : t0 ≠ T.next m) (a : ℚ) (y : List ℚ) :
    (getForecasts T.lib n m (frame t0 (a :: y)))[0]? = some (T.forecast m n) ∧
      (∀ i, i < y.length → (getForecasts T.lib n m (frame t0 (a :: y)))[i + 1]? = some (T.forecast ((y.take i).foldl T.extend (T.restart m t0 a)) n)) ∧
      ∀ (past : List ℚ) (i : Nat), t0 ≠ T.next (past.foldl T.extend m) → 1 ≤ i →
        (getForecasts T.lib n (past.foldl T.extend m) (frame t0 (a :: y)))[i]? = (getForecasts T.lib n m (frame t0 (a :: y)))[i]? := by
  have key : ∀ (m : M), t0 ≠ T.next m → ∀ i, i < y.length →
      (getForecasts T.lib n m (frame t0 (a :: y)))[i + 1]? = some (T.forecast ((y.take i).foldl T.extend (T.restart m t0 a)) n) := by
    intro m h0 i hi
    rw [(C41_row_uses_strict_past T.lib n m (frame t0 (a :: y))).2 (i + 1) (by rw [frame_length]; simpa using hi), frame_take]
    have h := after_following T hT (y.take i) (T.restart m t0 a)
    rw [hT.next_restart] at h
    rw [← h, List.take_succ_cons, frame]
    unfold after
    rw [List.foldl_cons]
    simp [Timed.lib, h0]
  have hlen : ∀ m, (getForecasts T.lib n m (frame t0 (a :: y))).length = y.length + 1 := by
    intro m
    rw [(C41_row_uses_strict_past T.lib n m _).1, frame_length, List.length_cons]
  have hpast : ∀ (past : List ℚ) (m : M), T.restart (past.foldl T.extend m) t0 a = T.restart m t0 a := by
    intro past
    induction past with
    | nil => intro m; rfl
    | cons b past ih => intro m; rw [List.foldl_cons, ih, hT.restart_extend]
  refine ⟨rfl, key m h0, ?_⟩
  intro past i h1 hi
  obtain ⟨i, rfl⟩ : ∃ k, i = k + 1 := ⟨i - 1, by omega⟩
  by_cases hil : i < y.length
  · rw [key m h0 i hil, key _ h1 i hil, hpast]
  · rw [List.getElem?_eq_none (by rw [hlen]; omega), List.getElem?_eq_none (by rw [hlen]; omega)]

/-- A fitted model whose forecasts are exact: fitted on `y 0 … y (N-1)` at the stamps `t0 …` it forecasts `y N, y (N+1), …`,
and started afresh on the same data it forecasts `y (i+1), …` after `y 0 … y i`. -/
structure ExactFit (T : Timed M) (m : M) (n : Nat) (y : Nat → ℚ) (t0 : ℤ) (N : Nat) : Prop where
  next : T.next m = t0 + N
  fitted : T.forecast m n = (List.range n).map (fun (j : Nat) => y (N + j))
  fresh : ∀ i, i + 1 < N → T.forecast (((List.range i).map (fun (k : Nat) => y (k + 1))).foldl T.extend (T.restart m t0 (y 0))) n =
    (List.range n).map (fun (j : Nat) => y (i + 1 + j))

/-- C41 (residuals): `fit` forecasts its own training frame with the model that has already seen it. The first residual of step
`j` compares the forecast for time `N + j`, after the training data, with the observation at time `1 + j`; the others compare
the forecast for time `i + 1 + j` with the observation one step later. For a model that forecasts the series exactly they are
`y(1+j) - y(N+j)` followed by the increments of the series. -/
theorem C41_residuals_of_exact_model (T : Timed M) (hT : Lawful T) (m : M) (n N : Nat) (y : Nat → ℚ) (t0 : ℤ) (h : ExactFit T m n y t0 N)
    (hN : n < N) (j : Nat) (hj : j < n) :
    residuals n ((List.range N).map y) (getForecasts T.lib n m (frame t0 ((List.range N).map y))) j =
      (y (1 + j) - y (N + j)) :: (List.range (N - n - 1)).map (fun (i : Nat) => y (i + 2 + j) - y (i + 1 + j)) := by
  obtain ⟨N, rfl⟩ : ∃ k, N = k + 1 := ⟨N - 1, by omega⟩
  have h0 : t0 ≠ T.next m := by rw [h.next]; push_cast; omega
  have hl : (List.range (N + 1)).map y = y 0 :: (List.range N).map (fun (k : Nat) => y (k + 1)) := by
    rw [List.range_succ_eq_map, List.map_cons, List.map_map]
    rfl
  obtain ⟨f0, f1, _⟩ := C41_other_frame T hT n m t0 h0 (y 0) ((List.range N).map (fun (k : Nat) => y (k + 1)))
  have hget : ∀ i, i < N + 1 → ((List.range (N + 1)).map y).getD i 0 = y i := by
    intro i hi
    rw [List.getD_eq_getElem?_getD, List.getElem?_map, List.getElem?_range hi]
    rfl
  have hrow : ∀ (f : Nat → ℚ), ((List.range n).map f).getD j 0 = f j := by
    intro f
    rw [List.getD_eq_getElem?_getD, List.getElem?_map, List.getElem?_range hj]
    rfl
  unfold residuals
  have hlen : ((List.range (N + 1)).map y).length - n = (N + 1 - n - 1) + 1 := by simp; omega
  rw [hlen, List.range_succ_eq_map (n := N + 1 - n - 1), List.map_cons, List.map_map]
  congr 1
  · rw [hget _ (by omega), hl, List.getD_eq_getElem?_getD (l := getForecasts _ _ _ _), f0, Option.getD_some, h.fitted, hrow, Nat.zero_add]
  · apply List.map_congr_left
    intro i hi
    rw [List.mem_range] at hi
    simp only [Function.comp]
    rw [hget _ (by omega), hl, List.getD_eq_getElem?_getD (l := getForecasts _ _ _ _), f1 i (by simp; omega), Option.getD_some, ← List.map_take, List.take_range,
      Nat.min_eq_left (by omega), h.fresh i (by omega), hrow]

theorem sorted_cons_replicate (b s : ℚ) (k : Nat) (h : b ≤ s) : (b :: List.replicate k s).insertionSort (· ≤ ·) = b :: List.replicate k s := by
  apply List.Pairwise.insertionSort_eq
  rw [List.pairwise_cons]
  refine ⟨?_, by rw [List.pairwise_replicate]; right; exact le_refl _⟩
  intro c hc
  rw [List.eq_of_mem_replicate hc]
  exact h

theorem quantileVal_cons_replicate (b s q : ℚ) (k : Nat) (hk : 1 ≤ k) (h : b ≤ s) (hq0 : 0 ≤ q) (hq1 : q ≤ 1) :
    Quantile.quantileVal (b :: List.replicate k s) q = if q * k ≤ 1 then b + q * k * (s - b) else s := by
  have hk0 : (0 : ℚ) < k := by exact_mod_cast hk
  unfold Quantile.quantileVal
  rw [sorted_cons_replicate b s k h]
  simp only [List.length_cons, List.length_replicate]
  have hv : q * (((k + 1 : Nat) : ℚ) - 1) = q * k := by push_cast; ring
  rw [hv]
  unfold Quantile.lerpAt
  simp only [List.length_cons, List.length_replicate, Nat.add_sub_cancel]
  have hget : ∀ i, 1 ≤ i → i ≤ k → (b :: List.replicate k s).getD i 0 = s := by
    intro i h1 h2
    obtain ⟨i, rfl⟩ : ∃ t, i = t + 1 := ⟨i - 1, by omega⟩
    rw [List.getD_cons_succ, List.getD_eq_getElem?_getD, List.getElem?_replicate_of_lt (by omega), Option.getD_some]
  have hle : q * k ≤ k := by nlinarith
  have hge : 0 ≤ q * k := by positivity
  split
  · rename_i h1
    rcases lt_or_eq_of_le h1 with h1 | h1
    · have hf : ⌊q * (k : ℚ)⌋ = 0 := by rw [Int.floor_eq_zero_iff]; exact ⟨hge, h1⟩
      rw [hf]
      simp only [Int.toNat_zero, Int.cast_zero, sub_zero, zero_add]
      rw [Nat.min_eq_left hk, hget 1 (le_refl _) hk]
      rfl
    · rw [h1]
      have hf : ⌊(1 : ℚ)⌋ = 1 := Int.floor_one
      rw [hf]
      rw [hget (Int.toNat 1) (by decide) (by simpa using hk)]
      simp
  · rename_i h1
    push Not at h1
    have hf1 : 1 ≤ ⌊q * (k : ℚ)⌋ := by rw [Int.le_floor]; push_cast; exact h1.le
    have hf2 : ⌊q * (k : ℚ)⌋ ≤ k := by
      have := Int.floor_le (q * (k : ℚ))
      exact_mod_cast this.trans hle
    rw [hget _ (by omega) (by omega), hget _ (by omega) (by omega)]
    ring

/-- C41 (bands): a model fitted on the ramp `a + s t`, `s ≥ 0`, whose forecasts are exact, is asked for the quantiles of a
frame that follows. The point forecast of row `i` in column `t+(j+1)` is the value `j` steps after the row; the band adds
`s`, one more step, except that the first residual drags the levels below `1/(N-n-1)` down to `-s (N-1)`. -/
theorem C41_ramp_band (T : Timed M) (hT : Lawful T) (m : M) (n N : Nat) (a s : ℚ) (hs : 0 ≤ s) (t0 : ℤ)
    (h : ExactFit T m n (fun (t : Nat) => a + s * t) t0 N) (hN : n + 1 < N) (z : List ℚ) (i j : Nat) (hi : i < z.length) (hj : j < n)
    (hz : T.forecast ((z.take i).foldl T.extend m) n = (List.range n).map (fun (j : Nat) => a + s * ((N + i + j : Nat) : ℚ)))
    (q : ℚ) (hq0 : 0 ≤ q) (hq1 : q ≤ 1) :
    predictQuantile T.lib Prod.snd n m (frame t0 ((List.range N).map (fun (t : Nat) => a + s * t))) (frame (T.next m) z) q i j =
      (a + s * ((N + i + j : Nat) : ℚ)) +
        (if q * ((N - n - 1 : Nat) : ℚ) ≤ 1 then -s * (N - 1) + q * ((N - n - 1 : Nat) : ℚ) * (s * N) else s) := by
  unfold predictQuantile errDistr
  rw [frame_snd, C41_residuals_of_exact_model T hT m n N _ t0 h (by omega) j hj, List.getD_eq_getElem?_getD (l := getForecasts _ _ _ _),
    C41_following_frame T hT n m z i hi, Option.getD_some, hz]
  have hc : (List.range (N - n - 1)).map (fun (i : Nat) => (a + s * ((i + 2 + j : Nat) : ℚ)) - (a + s * ((i + 1 + j : Nat) : ℚ))) =
      List.replicate (N - n - 1) s := by
    rw [List.eq_replicate_iff]
    refine ⟨by simp, ?_⟩
    intro r hr
    obtain ⟨i, _, rfl⟩ := List.mem_map.1 hr
    push_cast
    ring
  have hb : (a + s * ((1 + j : Nat) : ℚ)) - (a + s * ((N + j : Nat) : ℚ)) = -s * (N - 1) := by push_cast; ring
  have hN1 : (1 : ℚ) ≤ N := by exact_mod_cast (by omega : 1 ≤ N)
  rw [hc, hb, quantileVal_cons_replicate _ s q (N - n - 1) (by omega) (by nlinarith) hq0 hq1]
  congr 1
  · rw [List.getD_eq_getElem?_getD, List.getElem?_map, List.getElem?_range hj]
    rfl
  · split
    · ring
    · rfl

/-- Linear extrapolation with a known slope 2 as a library: the state is the next stamp and the next value. -/
def ramp : Timed (ℤ × ℚ) where
  next := fun m => m.1
  extend := fun m y => (m.1 + 1, y + 2)
  restart := fun _ t y => (t + 1, y + 2)
  forecast := fun m n => (List.range n).map (fun (j : Nat) => m.2 + 2 * j)

theorem ramp_lawful : Lawful ramp := ⟨fun _ _ => rfl, fun _ _ _ => rfl, fun _ _ _ _ => rfl, fun _ _ _ _ _ => rfl⟩

/-- The hypotheses are met: `ramp` fitted on `3 + 2 t`, `t < 5`, from stamp 10 on. -/
theorem ramp_exact : ExactFit ramp (15, 13) 2 (fun (t : Nat) => 3 + 2 * t) 10 5 where
  next := rfl
  fitted := by decide +kernel
  fresh := by
    intro i hi
    have : i < 4 := by omega
    interval_cases i <;> decide +kernel

example (q : ℚ) (h0 : 0 ≤ q) (h1 : q ≤ 1) :
    predictQuantile ramp.lib Prod.snd 2 (15, 13) (frame 10 ((List.range 5).map (fun (t : Nat) => (3 : ℚ) + 2 * t))) (frame 15 [13, 15, 17]) q 1 0 =
      (3 + 2 * ((5 + 1 + 0 : Nat) : ℚ)) + (if q * ((5 - 2 - 1 : Nat) : ℚ) ≤ 1 then -2 * ((5 : Nat) - 1) + q * ((5 - 2 - 1 : Nat) : ℚ) * (2 * (5 : Nat)) else 2) :=
  C41_ramp_band ramp ramp_lawful (15, 13) 2 5 3 2 (by norm_num) 10 ramp_exact (by norm_num) [13, 15, 17] 1 0 (by simp) (by norm_num) (by decide +kernel) q h0 h1
example : getForecasts ramp.lib 2 (15, 13) (frame 10 [3, 5, 7, 9, 11]) = [[13, 15], [5, 7], [7, 9], [9, 11], [11, 13]] := by decide +kernel
example : getForecasts ramp.lib 2 (15, 13) (frame 15 [13, 15, 17]) = [[13, 15], [15, 17], [17, 19]] := by decide +kernel
example : residuals 2 [3, 5, 7, 9, 11] (getForecasts ramp.lib 2 (15, 13) (frame 10 [3, 5, 7, 9, 11])) 0 = [-8, 2, 2] := by decide +kernel
/-- The median of the first step at the first served row is 15, the true value of the next row; the lowest level is 5. -/
example : predictQuantile ramp.lib Prod.snd 2 (15, 13) (frame 10 [3, 5, 7, 9, 11]) (frame 15 [13, 15, 17]) (1/2) 0 0 = 15 := by decide +kernel
example : predictQuantile ramp.lib Prod.snd 2 (15, 13) (frame 10 [3, 5, 7, 9, 11]) (frame 15 [13, 15, 17]) 0 0 0 = 5 := by decide +kernel

end PyF.Statsmodels
