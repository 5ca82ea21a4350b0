import Verif.Pipe.Props
import Mathlib.Tactic.NormNum

/-! Examples for C283–C285. -/

namespace PyF.Pipe
open PyF PyF.Names PyF.Transform PyF.Fmt PyF.FmtUnits PyF.Ols PyF.Ols.Spec

/-- The mean of the last two observations, target one step ahead. -/
def fm : Formatter :=
  { transformers := [{ names := ["q".toList], functions := [⟨"mean".toList, meanOf⟩], agg := .steps 2, lags := some [0], relative := false, dtArg := none }],
    targets := [{ names := ["q".toList], functions := [], agg := .unset, lags := some [-1], relative := false, dtArg := none }],
    augment := false }

def F : Frame := { dt := 3600000000000, cols := [("q".toList, [some 1, some 2, some 4, some 7])] }

def u : ℚ → ℚ := fun v => 1000 * v + 5

theorem ex_transform : ∃ fm' x y, transformX fm [0, 1, 2, 3] F true = .ok (fm', x, y) ∧ x.index = [1, 2] ∧
    x.cols.map Prod.snd = [[some (3 / 2), some 3]] ∧ y.index = [1, 2] ∧ y.cols.map Prod.snd = [[some 4, some 7]] := by
  refine ⟨_, _, _, rfl, ?_⟩
  decide +kernel

theorem rowAt_ex (n : ℕ) (hn : n = 1) (cols : List (Str × Col)) (a b : ℚ) (h : cols.map Prod.snd = [[some a, some b]]) (k : Fin n) :
    rowAt n cols 0 k = (a : ℝ) ∧ rowAt n cols 1 k = (b : ℝ) := by
  subst hn
  have hk : k.val = 0 := by omega
  match cols, h with
  | [(s, c)], h =>
    simp only [List.map_cons, List.map_nil, List.cons.injEq, and_true] at h
    subst h
    simp [rowAt, hk]

/-- The two rows of the training frame. -/
noncomputable def rows2 (a b c d : ℚ) : List (Row 1 1) := [(fun _ => (a : ℝ), fun _ => (c : ℝ)), (fun _ => (b : ℝ), fun _ => (d : ℝ))]

theorem dataOf_ex (x y : IFrame ℕ) (a b c d : ℚ) (hx : x.index = [1, 2]) (hxc : x.cols.map Prod.snd = [[some a, some b]])
    (hy : y.index = [1, 2]) (hyc : y.cols.map Prod.snd = [[some c, some d]]) : dataOf 1 1 x y = .ok (rows2 a b c d) := by
  have acc : ∀ (z : IFrame ℕ) (p q : ℚ), z.index = [1, 2] → z.cols.map Prod.snd = [[some p, some q]] → accepted 1 z = true := by
    intro z p q hz hc
    obtain ⟨zi, zc⟩ := z
    simp only at hz hc
    subst hz
    match zc, hc with
    | [(s, l)], hc =>
      simp only [List.map_cons, List.map_nil, List.cons.injEq, and_true] at hc
      subst hc
      simp [accepted, List.range_succ]
  unfold dataOf
  rw [acc x a b hx hxc, acc y c d hy hyc, hx]
  simp only [Bool.and_self, if_true]
  congr 1
  have e : List.range [1, 2].length = [0, 1] := rfl
  rw [e]
  simp only [List.map_cons, List.map_nil, rows2]
  congr 1
  · exact Prod.ext (funext fun k => (rowAt_ex 1 rfl _ _ _ hxc k).1) (funext fun k => (rowAt_ex 1 rfl _ _ _ hyc k).1)
  · congr 1
    exact Prod.ext (funext fun k => (rowAt_ex 1 rfl _ _ _ hxc k).2) (funext fun k => (rowAt_ex 1 rfl _ _ _ hyc k).2)

/-- A routine that finds the line of slope 2 and intercept `b`. -/
noncomputable def lineOf (b : ℝ) : Solver 1 1 := fun _ _ => ⟨fun _ _ => 2, fun _ => b⟩

theorem line_best (β : ℝ) (a b c d : ℚ) (h1 : (c : ℝ) = 2 * a + β) (h2 : (d : ℝ) = 2 * b + β) :
    IsBest 0 (rows2 a b c d) (lineOf β 0 (rows2 a b c d)) := by
  intro c'
  have e : loss 0 (rows2 a b c d) (lineOf β 0 (rows2 a b c d)) = 0 := by
    simp [loss, rows2, lineOf, pred, h1, h2]
    ring
  rw [e]
  unfold loss
  rw [zero_mul, add_zero]
  refine List.sum_nonneg ?_
  intro v hv
  obtain ⟨r, -, rfl⟩ := List.mem_map.1 hv
  exact Finset.sum_nonneg fun j _ => sq_nonneg _

/-- C283 applied: data in watts (and with an offset of five) instead of kilowatts. -/
example : ∃ (fm' : Formatter) (c c' : Coef 1 1), fitPipe (lineOf 1) "linear" none fm [0, 1, 2, 3] F = .ok (fm', c) ∧
    fitPipe (lineOf 995) "linear" none fm [0, 1, 2, 3] (frameIn u F) = .ok (fm', c') ∧
    ∀ (idx' : List ℕ) (G : Frame), predictPipe c' fm' idx' (frameIn u G) = (predictPipe c fm' idx' G).map (outIn 1000 5) := by
  obtain ⟨fm', x, y, ht, hx, hxc, hy, hyc⟩ := ex_transform
  have hd := dataOf_ex x y _ _ _ _ hx hxc hy hyc
  have hfit : fitPipe (lineOf 1) "linear" none fm [0, 1, 2, 3] F = .ok (fm', lineOf 1 0 (rows2 (3 / 2) 3 4 7)) := by
    unfold fitPipe
    rw [ht]
    simp only
    rw [hd]
    simp only [fit_linear, trainRows]
  have hux : ∀ tr ∈ fm.transformers, UnitfulTr u tr := by
    intro tr htr
    simp only [fm, List.mem_cons, List.not_mem_nil, or_false] at htr
    subst htr
    intro f hf
    simp only [List.mem_cons, List.not_mem_nil, or_false] at hf
    subst hf
    exact (C272_functions 1000 5).1
  have huy : ∀ tr ∈ fm.targets, UnitfulTr u tr := by
    intro tr htr
    simp only [fm, List.mem_cons, List.not_mem_nil, or_false] at htr
    subst htr
    intro f hf
    cases hf
  have ht' := C272_units u fm hux huy [0, 1, 2, 3] F true
  rw [ht] at ht'
  simp only [Except.map] at ht'
  have hd' : dataOf 1 1 (iframeIn u x) (iframeIn u y) = .ok (rows2 1505 3005 4005 7005) := by
    apply dataOf_ex
    · exact hx
    · have : (iframeIn u x).cols.map Prod.snd = (x.cols.map Prod.snd).map (colIn u) := by simp [iframeIn, colsIn]
      rw [this, hxc]
      decide +kernel
    · exact hy
    · have : (iframeIn u y).cols.map Prod.snd = (y.cols.map Prod.snd).map (colIn u) := by simp [iframeIn, colsIn]
      rw [this, hyc]
      decide +kernel
  obtain ⟨c', h1, h2⟩ := C283_units 1000 5 (by norm_num) (lineOf 1) (lineOf 995) none fm hux huy [0, 1, 2, 3] (by decide) F
    (by unfold WF; decide) (by
      rintro rows ⟨_, _, _, data, e1, e2, rfl⟩
      rw [ht] at e1
      simp only [Except.ok.injEq, Prod.mk.injEq] at e1
      obtain ⟨rfl, rfl, rfl⟩ := e1
      rw [hd] at e2
      obtain rfl := Except.ok.inj e2
      refine ⟨?_, line_best 1 _ _ _ _ (by norm_num) (by norm_num)⟩
      intro w b hw
      have g1 := hw (fun _ => ((3 / 2 : ℚ) : ℝ), fun _ => ((4 : ℚ) : ℝ)) (by simp [trainRows, rows2])
      have g2 := hw (fun _ => ((3 : ℚ) : ℝ), fun _ => ((7 : ℚ) : ℝ)) (by simp [trainRows, rows2])
      simp at g1 g2
      have hw0 : w 0 = 0 := by linarith
      exact ⟨by linarith, fun k => by rw [Subsingleton.elim k 0]; exact hw0⟩) (by
      rintro rows ⟨_, _, _, data, e1, e2, rfl⟩
      have e1' : (Except.ok (fm', iframeIn u x, iframeIn u y) : Except PyErr _) = _ := ht'.symm.trans e1
      simp only [Except.ok.injEq, Prod.mk.injEq] at e1'
      obtain ⟨rfl, rfl, rfl⟩ := e1'
      rw [hd'] at e2
      obtain rfl := Except.ok.inj e2
      exact line_best 995 _ _ _ _ (by norm_num) (by norm_num)) fm' _ hfit
  exact ⟨fm', _, c', hfit, h1, h2⟩

/-- C285 applied: the forecasts of the two training rows are the live ones. -/
example (c : Coef 1 1) : ∃ fm' x y, transformX fm [0, 1, 2, 3] F true = .ok (fm', x, y) ∧ ∀ k < 2, ∃ (t i : ℕ) (v : Fin 1 → ℝ)
    (bt live : List (ℕ × (Fin 1 → ℝ))), [0, 1, 2, 3][t]? = some i ∧ predictRows c x = .ok bt ∧ bt[k]? = some (i, v) ∧
      predictPipe c fm' ([0, 1, 2, 3].take (t + 1)) (truncate t F) = .ok live ∧ live.getLast? = some (i, v) := by
  obtain ⟨fm', x, y, ht, hx, hxc, -⟩ := ex_transform
  refine ⟨fm', x, y, ht, fun k hk => ?_⟩
  refine C285_backtest_is_live c fm rfl [0, 1, 2, 3] (by decide) F (by unfold WF; decide) ?_ fm' x y ht ?_ k (by rw [hx]; exact hk)
  · intro tr htr
    simp only [fm, List.mem_cons, List.not_mem_nil, or_false] at htr
    subst htr
    intro ls hls l hl
    injection hls with hls
    subst hls
    simp at hl
    omega
  · have := congrArg List.length hxc
    simpa using this

/-- C284 applied: the same data a week (168 hours) later. -/
example (S : Solver 1 1) : fitPipe S "ridge" none fm [168, 169, 170, 171] F = fitPipe S "ridge" none fm [0, 1, 2, 3] F :=
  (C284_time_stamps (fun i : ℕ => i + 168) (fun _ _ h => Nat.add_right_cancel h) S "ridge" none fm [0, 1, 2, 3] F).1

end PyF.Pipe
