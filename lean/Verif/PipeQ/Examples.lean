import Verif.PipeQ.Props
import Verif.PipeQ.Faithful
import Verif.Pipe.Examples

/-! Examples for C317 and C318. -/

namespace PyF.PipeQ
open PyF PyF.Names PyF.Transform PyF.Fmt PyF.FmtUnits PyF.Ols PyF.Ols.Spec PyF.Pipe

/-- The hour of a time stamp given in hours. -/
def hourN (i : ℕ) : Fin 24 := ⟨i % 24, Nat.mod_lt _ (by decide)⟩

/-- C317 applied: data in watts (and with an offset of five) instead of kilowatts; quantiles of levels 0.1 and 0.9. -/
example : ∃ (fm' : Formatter) (c c' : Fitted 1 1), fitPipe (lineOf 1) "linear" none [1 / 10, 9 / 10] hourN fm [0, 1, 2, 3] F = .ok (fm', c) ∧
    fitPipe (lineOf 995) "linear" none [1 / 10, 9 / 10] hourN fm [0, 1, 2, 3] (frameIn u F) = .ok (fm', c') ∧
    ∀ (idx' : List ℕ) (G : Frame), quantPipe hourN c' fm' idx' (frameIn u G) = (quantPipe hourN c fm' idx' G).map (outQ 1000 5) := by
  obtain ⟨fm', x, y, ht, hx, hxc, hy, hyc⟩ := ex_transform
  have hd := dataOf_ex x y _ _ _ _ hx hxc hy hyc
  obtain ⟨t, hfit⟩ : ∃ t, fitPipe (lineOf 1) "linear" none [1 / 10, 9 / 10] hourN fm [0, 1, 2, 3] F = .ok (fm', ⟨lineOf 1 0 (rows2 (3 / 2) 3 4 7), t⟩) := by
    unfold fitPipe
    rw [ht]
    simp only
    rw [hd]
    simp only [hx]
    unfold fitLin errTable
    have hlev : ¬ ∃ q ∈ ([1 / 10, 9 / 10] : List ℝ), q < 0 ∨ 1 < q := by
      rintro ⟨q, hq, h⟩
      simp only [List.mem_cons, List.not_mem_nil, or_false] at hq
      rcases hq with rfl | rfl <;> norm_num at h
    simp only [fit_linear, if_neg hlev]
    have hne : ((trainRows none (((List.map hourN [1, 2]).zip (rows2 (3 / 2) 3 4 7)).map Prod.snd)).isEmpty
        || (valRows none ((List.map hourN [1, 2]).zip (rows2 (3 / 2) 3 4 7))).isEmpty) = false := rfl
    rw [hne]
    exact ⟨_, rfl⟩
  have hux : ∀ tr ∈ fm.transformers, UnitfulTr u tr := by
    intro tr htr
    simp only [fm, List.mem_cons, List.not_mem_nil, or_false] at htr
    subst htr
    intro f hf
    simp only [List.mem_cons, List.not_mem_nil, or_false] at hf
    subst hf
    exact (C272_functions 1000 5).1
  have huy : ∀ tr ∈ fm.targets, UnitfulTr u tr := by
    intro tr htr
    simp only [fm, List.mem_cons, List.not_mem_nil, or_false] at htr
    subst htr
    intro f hf
    cases hf
  have ht' := C272_units u fm hux huy [0, 1, 2, 3] F true
  rw [ht] at ht'
  simp only [Except.map] at ht'
  have hd' : dataOf 1 1 (iframeIn u x) (iframeIn u y) = .ok (rows2 1505 3005 4005 7005) := by
    apply dataOf_ex
    · exact hx
    · have : (iframeIn u x).cols.map Prod.snd = (x.cols.map Prod.snd).map (colIn u) := by simp [iframeIn, colsIn]
      rw [this, hxc]
      decide +kernel
    · exact hy
    · have : (iframeIn u y).cols.map Prod.snd = (y.cols.map Prod.snd).map (colIn u) := by simp [iframeIn, colsIn]
      rw [this, hyc]
      decide +kernel
  obtain ⟨c', h1, h2⟩ := C317_units 1000 5 (by norm_num) (lineOf 1) (lineOf 995) none [1 / 10, 9 / 10] hourN fm hux huy [0, 1, 2, 3] (by decide) F
    (by unfold WF; decide) (by
      rintro rows ⟨_, _, _, data, e1, e2, rfl⟩
      rw [ht] at e1
      simp only [Except.ok.injEq, Prod.mk.injEq] at e1
      obtain ⟨rfl, rfl, rfl⟩ := e1
      rw [hd] at e2
      obtain rfl := Except.ok.inj e2
      refine ⟨?_, line_best 1 _ _ _ _ (by norm_num) (by norm_num)⟩
      intro w b hw
      have g1 := hw (fun _ => ((3 / 2 : ℚ) : ℝ), fun _ => ((4 : ℚ) : ℝ)) (by simp [rows2])
      have g2 := hw (fun _ => ((3 : ℚ) : ℝ), fun _ => ((7 : ℚ) : ℝ)) (by simp [rows2])
      simp at g1 g2
      have hw0 : w 0 = 0 := by linarith
      exact ⟨by linarith, fun k => by rw [Subsingleton.elim k 0]; exact hw0⟩) (by
      rintro rows ⟨_, _, _, data, e1, e2, rfl⟩
      have e1' : (Except.ok (fm', iframeIn u x, iframeIn u y) : Except PyErr _) = _ := ht'.symm.trans e1
      simp only [Except.ok.injEq, Prod.mk.injEq] at e1'
      obtain ⟨rfl, rfl, rfl⟩ := e1'
      rw [hd'] at e2
      obtain rfl := Except.ok.inj e2
      exact line_best 995 _ _ _ _ (by norm_num) (by norm_num)) fm' _ hfit
  exact ⟨fm', _, c', hfit, h1, h2⟩

/-- Two hours later in the day, going around at midnight. -/
def later : Equiv.Perm (Fin 24) := Equiv.addRight 2

/-- C318 applied: all time stamps two hours later (a time zone further east). -/
example (S : Solver 1 1) (c : Fitted 1 1) (fm' : Formatter) (idx : List ℕ) (G : Frame) :
    quantPipe hourN ⟨c.coef, fun h => c.table (later.symm h)⟩ fm' (idx.map (fun i => i + 2)) G
      = (quantPipe hourN c fm' idx G).map (fun l => l.map (fun p => (p.1 + 2, p.2))) :=
  (C318_time_stamps (fun i : ℕ => i + 2) (fun _ _ h => Nat.add_right_cancel h) hourN hourN later
    (fun i => by
      apply Fin.ext
      simp [hourN, later, Fin.val_add]) S "linear" none [1 / 2] fm idx G).2 c fm' idx G

/-- C319 applied: the quantile forecasts of the two training rows are the live ones. -/
example (c : Fitted 1 1) : ∃ fm' x y, transformX fm [0, 1, 2, 3] F true = .ok (fm', x, y) ∧ ∀ k < 2, ∃ (t i : ℕ) (v : Fin 1 → List ℝ)
    (bt live : List (ℕ × (Fin 1 → List ℝ))), [0, 1, 2, 3][t]? = some i ∧ quantRows hourN c x = .ok bt ∧ bt[k]? = some (i, v) ∧
      quantPipe hourN c fm' ([0, 1, 2, 3].take (t + 1)) (truncate t F) = .ok live ∧ live.getLast? = some (i, v) := by
  obtain ⟨fm', x, y, ht, hx, hxc, -⟩ := ex_transform
  refine ⟨fm', x, y, ht, fun k hk => ?_⟩
  refine C319_backtest_is_live hourN c fm rfl [0, 1, 2, 3] (by decide) F (by unfold WF; decide) ?_ fm' x y ht ?_ k (by rw [hx]; exact hk)
  · intro tr htr
    simp only [fm, List.mem_cons, List.not_mem_nil, or_false] at htr
    subst htr
    intro ls hls l hl
    injection hls with hls
    subst hls
    simp at hl
    omega
  · have := congrArg List.length hxc
    simpa using this

/-- C317 (quantile): the median of the errors 3, 1, 2, 7 is 5/2. -/
example : quantile [3, 1, 2, 7] (1 / 2) = 5 / 2 := by
  have h := C317_quantile [3, 1, 2, 7] (1 / 2)
  have e : Quantile.quantileVal [3, 1, 2, 7] (1 / 2) = 5 / 2 := by decide +kernel
  rw [e] at h
  norm_num at h
  norm_num
  exact h

/-- C317 (table): a level of 1.5 is refused; two errors of the same hour serve all hours. -/
example (e : Fin 1 → ℝ) : errTable [1 / 2, 3 / 2] [(5, e)] = .error .valueError :=
  (C317_table _ _).1 ⟨3 / 2, by simp, Or.inr (by norm_num)⟩

example : ∃ t, errTable [0] [(5, fun _ : Fin 1 => (1 : ℝ)), (5, fun _ => 3)] = .ok t ∧ t 7 0 = [quantile [1, 3] 0] := by
  obtain ⟨t, ht, h⟩ := (C317_table [0] [((5 : Fin 24), fun _ : Fin 1 => (1 : ℝ)), (5, fun _ => 3)]).2 (by simp)
  refine ⟨t, ht, ?_⟩
  rw [h]
  have hn : ¬ AllHours [((5 : Fin 24), fun _ : Fin 1 => (1 : ℝ)), (5, fun _ => 3)] := by
    intro ha
    obtain ⟨r, hr, e⟩ := ha 7
    simp only [List.mem_cons, List.not_mem_nil, or_false] at hr
    rcases hr with rfl | rfl <;> exact absurd e (by decide)
  simp [hn]

end PyF.PipeQ
