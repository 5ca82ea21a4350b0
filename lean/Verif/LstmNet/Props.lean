import Verif.LstmNet.Model
import Mathlib.Analysis.SpecialFunctions.Artanh
import Mathlib.Algebra.Order.BigOperators.Group.Finset
import Mathlib.Algebra.Order.BigOperators.Ring.Finset
import Mathlib.Tactic.Ring
import Mathlib.Tactic.Linarith
import Mathlib.Tactic.Positivity

/-! C278: sizes of the forecasts of `LSTMNN`. C279: their range. C280: the order of the columns. -/

namespace PyF.LstmNet
open PyF

theorem step_h_lt (C : Cell) (m n : ℕ) (s : Carry) (x : ℕ → ℝ) (k : ℕ) : |(C.step m n s x).h k| < 1 := by
  simp only [Cell.step, abs_mul]
  have h1 : |Real.sigmoid (C.o.pre m n x s.h k)| < 1 := by
    rw [abs_of_pos (Real.sigmoid_pos _)]
    exact Real.sigmoid_lt_one _
  have h2 := Real.abs_tanh_lt_one (Real.sigmoid (C.f.pre m n x s.h k) * s.c k
    + Real.sigmoid (C.i.pre m n x s.h k) * Real.tanh (C.g.pre m n x s.h k))
  exact mul_lt_one_of_nonneg_of_lt_one_left (abs_nonneg _) h1 h2.le

theorem scan_lt (C : Cell) (m n : ℕ) (s : Carry) (xs : List (ℕ → ℝ)) : ∀ h ∈ C.scan m n s xs, ∀ k, |h k| < 1 := by
  induction xs generalizing s with
  | nil => intro h hh; cases hh
  | cons x xs ih =>
    intro h hh k
    unfold Cell.scan at hh
    rcases List.mem_cons.1 hh with rfl | hh
    · exact step_h_lt C m n s x k
    · exact ih _ h hh k

theorem scan_length (C : Cell) (m n : ℕ) (s : Carry) (xs : List (ℕ → ℝ)) : (C.scan m n s xs).length = xs.length := by
  induction xs generalizing s with
  | nil => rfl
  | cons x xs ih => simp [Cell.scan, ih]

/-- The outcome of the loop: the dense image of hidden states within (-1, 1), or an error for a row without columns. -/
theorem run_spec (cells : ℕ → Cell) (D : Dense) (ls : List ℕ) (hls : ls ≠ []) (j m : ℕ) (xs : List (ℕ → ℝ)) :
    (xs = [] → run cells D j m xs ls = .error .indexError) ∧
    (xs ≠ [] → ∃ h : ℕ → ℝ, (∀ k, |h k| < 1) ∧ run cells D j m xs ls
      = .ok ((List.range (ls.getLast hls)).map (fun k => (∑ i ∈ Finset.range (ls.getLast hls), D.W k i * h i) + D.b k))) := by
  induction ls generalizing j m xs with
  | nil => exact absurd rfl hls
  | cons n ls ih =>
    cases ls with
    | nil =>
      constructor
      · rintro rfl; rfl
      · intro hxs
        have hne : (cells j).scan m n Carry.zero xs ≠ [] := by
          intro h
          have := congrArg List.length h
          rw [scan_length] at this
          exact hxs (List.eq_nil_of_length_eq_zero this)
        refine ⟨((cells j).scan m n Carry.zero xs).getLast hne, scan_lt _ _ _ _ _ _ (List.getLast_mem hne), ?_⟩
        unfold run Dense.last
        rw [List.getLast?_eq_getLast_of_ne_nil hne]
        rfl
    | cons n' ns =>
      have := ih (by simp) (j + 1) n ((cells j).scan m n Carry.zero xs)
      constructor
      · rintro rfl
        exact this.1 rfl
      · intro hxs
        have hne : (cells j).scan m n Carry.zero xs ≠ [] := by
          intro h
          have := congrArg List.length h
          rw [scan_length] at this
          exact hxs (List.eq_nil_of_length_eq_zero this)
        obtain ⟨h, h1, h2⟩ := this.2 hne
        exact ⟨h, h1, h2⟩

/-- The number of forecasts per row. -/
def outSize (L : Layers) (nOut : ℕ) : Option ℕ :=
  match L with
  | .num 0 => none
  | .num _ => some nOut
  | .sizes l => l.getLast?

theorem forward_spec (L : Layers) (nNeurons nOut N : ℕ) (hN : outSize L nOut = some N) (cells : ℕ → Cell) (D : Dense)
    (row : List ℝ) (hrow : row ≠ []) :
    ∃ h : ℕ → ℝ, (∀ k, |h k| < 1) ∧ forward L nNeurons nOut cells D row
      = .ok ((List.range N).map (fun k => (∑ i ∈ Finset.range N, D.W k i * h i) + D.b k)) := by
  have hmap : row.map (fun (v : ℝ) => (fun _ => v : ℕ → ℝ)) ≠ [] := by simpa using hrow
  unfold forward
  cases L with
  | num l =>
    cases l with
    | zero => cases hN
    | succ l =>
      simp only [outSize, Option.some.injEq] at hN
      subst hN
      obtain ⟨h, h1, h2⟩ := (run_spec cells D (List.replicate l nNeurons ++ [nOut]) (by simp) 0 1 _).2 hmap
      refine ⟨h, h1, ?_⟩
      simp only [layerSizes]
      rw [h2]
      simp
  | sizes l =>
    simp only [outSize] at hN
    have hne : l ≠ [] := by rintro rfl; cases hN
    rw [List.getLast?_eq_getLast_of_ne_nil hne] at hN
    injection hN with hN
    subst hN
    obtain ⟨h, h1, h2⟩ := (run_spec cells D l hne 0 1 _).2 hmap
    exact ⟨h, h1, h2⟩

/-- C278: a row of at least one feature gets as many forecasts as there are target columns iff the width of the network agrees with
them: `n_out` for a positive number of layers, the last size for a list of layer sizes (whatever `n_out` is). Otherwise `ValueError`.
Zero layers: `IndexError`. -/
theorem C278_sizes (nNeurons nOut nCols : ℕ) (cells : ℕ → Cell) (D : Dense) (mean scale : ℕ → ℝ) (row : List ℝ) (hrow : row ≠ []) :
    (∀ L N, outSize L nOut = some N →
      (N = nCols → ∃ y, predict L nNeurons nOut nCols cells D mean scale row = .ok y ∧ y.length = nCols) ∧
      (N ≠ nCols → predict L nNeurons nOut nCols cells D mean scale row = .error .valueError)) ∧
    predict (.num 0) nNeurons nOut nCols cells D mean scale row = .error .indexError := by
  refine ⟨?_, rfl⟩
  intro L N hN
  obtain ⟨h, _, h2⟩ := forward_spec L nNeurons nOut N hN cells D row hrow
  unfold predict
  rw [h2]
  constructor
  · intro e
    exact ⟨_, if_pos (by simpa using e), by simpa [unscale] using e⟩
  · intro e
    exact if_neg (by simpa using e)

theorem dense_band (n : ℕ) (w h : ℕ → ℝ) (hh : ∀ k, |h k| < 1) :
    |∑ i ∈ Finset.range n, w i * h i| ≤ ∑ i ∈ Finset.range n, |w i| := by
  refine (Finset.abs_sum_le_sum_abs _ _).trans (Finset.sum_le_sum fun i _ => ?_)
  rw [abs_mul]
  exact mul_le_of_le_one_right (abs_nonneg _) (hh i).le

/-- C279: a trained `LSTMNN` cannot leave a fixed band. Whatever the features, the forecast of step `k` differs from
`mean k + scale k * b k` by at most `|scale k|` times the sum of the absolute weights of row `k` of the final layer; neither bound
nor centre depend on the features. -/
theorem C279_band (L : Layers) (nNeurons nOut N : ℕ) (hN : outSize L nOut = some N) (cells : ℕ → Cell) (D : Dense)
    (mean scale : ℕ → ℝ) (row : List ℝ) (hrow : row ≠ []) :
    ∃ y, predict L nNeurons nOut N cells D mean scale row = .ok y ∧ ∀ (k : ℕ) (v : ℝ), y[k]? = some v →
      |v - (mean k + scale k * D.b k)| ≤ |scale k| * ∑ i ∈ Finset.range N, |D.W k i| := by
  obtain ⟨h, h1, h2⟩ := forward_spec L nNeurons nOut N hN cells D row hrow
  unfold predict
  rw [h2]
  refine ⟨_, if_pos (by simp), ?_⟩
  intro k v hv
  unfold unscale at hv
  rw [List.getElem?_map, List.getElem?_zipIdx, List.getElem?_map] at hv
  by_cases hk : k < N
  · rw [List.getElem?_range hk] at hv
    simp only [Option.map_some, Option.some.injEq, Nat.zero_add] at hv
    rw [← hv]
    have e : ((∑ i ∈ Finset.range N, D.W k i * h i) + D.b k) * scale k + mean k - (mean k + scale k * D.b k)
        = scale k * ∑ i ∈ Finset.range N, D.W k i * h i := by ring
    rw [e, abs_mul]
    exact mul_le_mul_of_nonneg_left (dense_band N (D.W k) h h1) (abs_nonneg _)
  · rw [List.getElem?_eq_none (by simpa using hk)] at hv
    cases hv

/-- C279 (trend): hence no trained `LSTMNN` follows a series without bound: for every network there is a level such that no row of
features whatsoever is answered by a forecast above it. -/
theorem C279_no_growth (L : Layers) (nNeurons nOut N : ℕ) (hN : outSize L nOut = some N) (cells : ℕ → Cell) (D : Dense)
    (mean scale : ℕ → ℝ) (k : ℕ) :
    ∃ M : ℝ, ∀ (row : List ℝ) (y : List ℝ) (v : ℝ), row ≠ [] → predict L nNeurons nOut N cells D mean scale row = .ok y →
      y[k]? = some v → |v| ≤ M := by
  refine ⟨|mean k + scale k * D.b k| + |scale k| * ∑ i ∈ Finset.range N, |D.W k i|, ?_⟩
  intro row y v hrow hy hv
  obtain ⟨y', hy', h⟩ := C279_band L nNeurons nOut N hN cells D mean scale row hrow
  rw [hy] at hy'
  cases hy'
  have h3 := h k v hv
  have h4 := abs_add_le (v - (mean k + scale k * D.b k)) (mean k + scale k * D.b k)
  rw [sub_add_cancel] at h4
  linarith

/-! ### C280 -/

/-- A gate that ignores everything. -/
def zeroGate : Gate := ⟨fun _ _ => 0, fun _ _ => 0, fun _ => 0⟩

/-- A cell whose candidate is the input and whose gates are half open. -/
def halfCell : Cell := ⟨zeroGate, zeroGate, ⟨fun _ _ => 1, fun _ _ => 0, fun _ => 0⟩, zeroGate⟩

theorem zero_pre (m n : ℕ) (x h : ℕ → ℝ) (k : ℕ) : zeroGate.pre m n x h k = 0 := by simp [Gate.pre, zeroGate]

theorem half_pre (x h : ℕ → ℝ) (k : ℕ) : halfCell.g.pre 1 1 x h k = x 0 := by simp [Gate.pre, halfCell]

theorem sigmoid_zero : Real.sigmoid 0 = 1 / 2 := by
  rw [Real.sigmoid_def]; norm_num

theorem half_step (s : Carry) (x : ℕ → ℝ) (k : ℕ) :
    (halfCell.step 1 1 s x).c k = 1 / 2 * s.c k + 1 / 2 * Real.tanh (x 0) ∧
      (halfCell.step 1 1 s x).h k = 1 / 2 * Real.tanh (1 / 2 * s.c k + 1 / 2 * Real.tanh (x 0)) := by
  have e1 : halfCell.f = zeroGate := rfl
  have e2 : halfCell.i = zeroGate := rfl
  have e3 : halfCell.o = zeroGate := rfl
  constructor <;> simp only [Cell.step, e1, e2, e3, zero_pre, half_pre, sigmoid_zero]

/-- C280: the columns of the input frame are read as a sequence in time. There is a network with one layer and one output for which a
row of two equal features is the only one whose forecast does not change when its two columns are swapped. -/
theorem C280_column_order : ∃ (cells : ℕ → Cell) (D : Dense), ∀ (nNeurons : ℕ) (a b : ℝ),
    forward (.num 1) nNeurons 1 cells D [a, b] = forward (.num 1) nNeurons 1 cells D [b, a] ↔ a = b := by
  have tinj : ∀ x y : ℝ, Real.tanh x = Real.tanh y → x = y := fun x y h => Real.tanh_injective h
  refine ⟨fun _ => halfCell, ⟨fun _ _ => 1, fun _ => 0⟩, ?_⟩
  intro nNeurons a b
  have hf : ∀ a b : ℝ, forward (.num 1) nNeurons 1 (fun _ => halfCell) ⟨fun _ _ => 1, fun _ => 0⟩ [a, b]
      = .ok [1 / 2 * Real.tanh (1 / 2 * (1 / 2 * Real.tanh a) + 1 / 2 * Real.tanh b)] := by
    intro a b
    simp only [forward, layerSizes, List.replicate_zero, List.nil_append, run, List.map_cons, List.map_nil, Cell.scan, Dense.last,
      List.getLast?_cons_cons, List.getLast?_singleton]
    have e : List.range 1 = [0] := rfl
    rw [e]
    simp only [List.map_cons, List.map_nil, Finset.sum_range_one, one_mul, add_zero, (half_step _ _ _).2, (half_step _ _ _).1, Carry.zero,
      mul_zero, zero_add]
  rw [hf, hf]
  constructor
  · intro h
    have h1 : 1 / 2 * Real.tanh (1 / 2 * (1 / 2 * Real.tanh a) + 1 / 2 * Real.tanh b)
        = 1 / 2 * Real.tanh (1 / 2 * (1 / 2 * Real.tanh b) + 1 / 2 * Real.tanh a) := by
      simpa using Except.ok.inj h
    have h2 := tinj (1 / 2 * (1 / 2 * Real.tanh a) + 1 / 2 * Real.tanh b) (1 / 2 * (1 / 2 * Real.tanh b) + 1 / 2 * Real.tanh a)
      (by linarith)
    exact tinj _ _ (by linarith)
  · rintro rfl; rfl

/-- A cell that does not look at its inputs. -/
def Blind (C : Cell) : Prop := ∀ k j : ℕ, C.i.W k j = 0 ∧ C.f.W k j = 0 ∧ C.g.W k j = 0 ∧ C.o.W k j = 0

theorem blind_scan (C : Cell) (hC : Blind C) (m m' n : ℕ) (s : Carry) (xs ys : List (ℕ → ℝ)) (hl : xs.length = ys.length) :
    C.scan m n s xs = C.scan m' n s ys := by
  induction xs generalizing s ys with
  | nil =>
    cases ys with
    | nil => rfl
    | cons y ys => cases hl
  | cons x xs ih =>
    cases ys with
    | nil => cases hl
    | cons y ys =>
      have hstep : C.step m n s x = C.step m' n s y := by
        have h1 : ∀ k, C.f.pre m n x s.h k = C.f.pre m' n y s.h k := fun k => by simp [Gate.pre, (hC _ _).2.1]
        have h2 : ∀ k, C.i.pre m n x s.h k = C.i.pre m' n y s.h k := fun k => by simp [Gate.pre, (hC _ _).1]
        have h3 : ∀ k, C.g.pre m n x s.h k = C.g.pre m' n y s.h k := fun k => by simp [Gate.pre, (hC _ _).2.2.1]
        have h4 : ∀ k, C.o.pre m n x s.h k = C.o.pre m' n y s.h k := fun k => by simp [Gate.pre, (hC _ _).2.2.2]
        simp only [Cell.step, h1, h2, h3, h4]
      simp only [Cell.scan]
      rw [hstep, ih (C.step m' n s y) ys (by simpa using hl)]

theorem blind_run (cells : ℕ → Cell) (D : Dense) (ls : List ℕ) (i j m : ℕ) (hi : i < ls.length) (hb : Blind (cells (j + i)))
    (xs ys : List (ℕ → ℝ)) (hl : xs.length = ys.length) : run cells D j m xs ls = run cells D j m ys ls := by
  induction ls generalizing i j m xs ys with
  | nil => cases hi
  | cons n ls ih =>
    cases i with
    | zero =>
      cases ls with
      | nil => simp only [run, blind_scan (cells j) hb m m n Carry.zero xs ys hl]
      | cons n' ns => simp only [run, blind_scan (cells j) hb m m n Carry.zero xs ys hl]
    | succ i =>
      cases ls with
      | nil => simp at hi
      | cons n' ns =>
        simp only [run]
        exact ih i (j + 1) n (by simpa using hi) (by rwa [Nat.add_right_comm, Nat.add_assoc]) _ _
          (by rw [scan_length, scan_length, hl])

/-- C280 (layers in series): the features reach the forecast only through all layers one after the other. If any one of the layers
does not look at its inputs, rows with the same number of features get the same forecast. -/
theorem C280_series (L : Layers) (nNeurons nOut : ℕ) (ls : List ℕ) (hls : layerSizes L nNeurons nOut = .ok ls) (cells : ℕ → Cell)
    (D : Dense) (i : ℕ) (hi : i < ls.length) (hb : Blind (cells i)) (r r' : List ℝ) (hl : r.length = r'.length) :
    forward L nNeurons nOut cells D r = forward L nNeurons nOut cells D r' := by
  unfold forward
  rw [hls]
  exact blind_run cells D ls i 0 1 hi (by rwa [Nat.zero_add]) _ _ (by simpa using hl)

end PyF.LstmNet
