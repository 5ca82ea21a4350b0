import Verif.Sampling.Median
import Verif.Bench.Props

/-! Properties C246 and C247: cells and layout of the discrete distribution benchmark. -/

namespace PyF.Sampling

open PyF

theorem floorTo_pos (u v : ℤ) (hu : 0 < u) : floorTo u v = v - v % u := by
  unfold floorTo
  rw [if_neg hu.ne', Int.fmod_eq_emod_of_nonneg _ hu.le]

theorem day_pos : 0 < day := by unfold day; norm_num

theorem timeOfDay_eq (v : ℤ) : timeOfDay v = v % day := Int.fmod_eq_emod_of_nonneg _ day_pos.le

/-- The cell of a stamp is its time of day, cut to a multiple of the sampling time. -/
theorem cellOf_eq (u v : ℤ) (hu : 0 < u) (hd : u ∣ day) : cellOf u v = v % day - v % day % u := by
  unfold cellOf
  rw [floorTo_pos u v hu, timeOfDay_eq, Int.emod_emod_of_dvd v hd]
  have h1 := Int.emod_nonneg v day_pos.ne'
  have h2 := Int.emod_lt_of_pos v day_pos
  have h3 := Int.emod_nonneg v hu.ne'
  have h4 : v % u ≤ v % day := by
    rw [← Int.emod_emod_of_dvd v hd]
    have := Int.emod_add_mul_ediv (v % day) u
    have h6 : 0 ≤ u * (v % day / u) := mul_nonneg hu.le (Int.ediv_nonneg h1 hu.le)
    linarith
  have h5 : v - v % u = v % day - v % u + day * (v / day) := by
    have := Int.emod_add_mul_ediv v day
    linarith
  rw [h5, Int.add_mul_emod_self_left, Int.emod_eq_of_lt (by omega) (by omega)]

theorem cellOf_mul (u v : ℤ) (hu : 0 < u) (hd : u ∣ day) : cellOf u v = u * (v % day / u) := by
  rw [cellOf_eq u v hu hd]
  have := Int.emod_add_mul_ediv (v % day) u
  linarith

/-- The observations of target `j` in the slot of length `u` of the day that contains time `v`. -/
def slotValues {T : ℕ} (u : ℤ) (y : List (ℤ × (Fin T → ℚ))) (j : Fin T) (v : ℤ) : List ℚ :=
  (y.filter (fun r => r.1 % day / u = v % day / u)).map (fun r => r.2 j)

/-- The average of a list shrunk by one part in 1e12 per entry; 0 for the empty list. -/
def shrunkMean (l : List ℚ) : ℚ := if l = [] then 0 else l.sum / (l.length + 1 / 10 ^ 12)

variable {N : Type} {T : ℕ}

theorem fit_rows (xI : List ℤ) (y : List (ℤ × (Fin T → ℚ))) (names : Fin T → N) (m : Fitted N T) (h : fit xI y names = .ok m) (u : ℤ)
    (hu : samplingTime xI = some u) : m.rows = y.map (fun r => ⟨cellOf u r.1, r.2⟩) ∧ m.names = names := by
  unfold fit at h
  rw [hu] at h
  have := Except.ok.inj h
  rw [← this]
  exact ⟨rfl, rfl⟩

theorem cell_map (u : ℤ) (y : List (ℤ × (Fin T → ℚ))) (j : Fin T) (c : ℤ) :
    Bench.cell (y.map (fun r => (⟨cellOf u r.1, r.2⟩ : Bench.DRow ℤ T))) c j = (y.filter (fun r => cellOf u r.1 = c)).map (fun r => r.2 j) := by
  unfold Bench.cell
  rw [List.filter_map, List.map_map]
  rfl

theorem forecast_at (u : ℤ) (y : List (ℤ × (Fin T → ℚ))) (j : Fin T) (c : ℤ) (l : List ℚ) (h : (y.filter (fun r => cellOf u r.1 = c)).map (fun r => r.2 j) = l) :
    Bench.discPredict (y.map (fun r => (⟨cellOf u r.1, r.2⟩ : Bench.DRow ℤ T))) c j = shrunkMean l := by
  rw [Bench.C36_point_forecast, cell_map, h]
  rfl

theorem slot_iff (u : ℤ) (hu : 0 < u) (a b : ℤ) : u * (a / u) = u * (b / u) ↔ a / u = b / u :=
  ⟨fun h => mul_left_cancel₀ hu.ne' h, fun h => by rw [h]⟩

/-- **C246.** Trained and asked on frames of the same sampling time `u`, a divisor of the day: the forecast of a target at a time is the average, over the
training rows in the same slot of length `u` of the day, shrunk by one part in 1e12 per row. -/
theorem C246_same_step (xI : List ℤ) (y : List (ℤ × (Fin T → ℚ))) (names : Fin T → N) (m : Fitted N T) (h : fit xI y names = .ok m) (u : ℤ) (hpos : 0 < u)
    (hd : u ∣ day) (hu : samplingTime xI = some u) (v : ℤ) (j : Fin T) :
    Bench.discPredict m.rows (cellOf u v) j = shrunkMean (slotValues u y j v) := by
  rw [(fit_rows xI y names m h u hu).1]
  apply forecast_at
  unfold slotValues
  congr 1
  apply List.filter_congr
  intro r _
  rw [decide_eq_decide, cellOf_mul u _ hpos hd, cellOf_mul u _ hpos hd, slot_iff u hpos]

theorem mod_floor (u U v : ℤ) (hU : 0 < U) (huU : u ∣ U) (hu : 0 < u) : cellOf U v = cellOf u (v - v % U) := by
  unfold cellOf
  rw [floorTo_pos U v hU, floorTo_pos u _ hu]
  have h : (v - v % U) % u = 0 := by
    have h1 : U ∣ v - v % U := Int.dvd_self_sub_emod
    exact Int.emod_eq_zero_of_dvd (huU.trans h1)
  rw [h, sub_zero]

/-- **C246.** Defect: asked on a coarser frame, sampling time `U` a multiple of `u`, the forecast at time `v` is the one of the slot in which the step of length
`U` containing `v` starts; that is the slot of `v` exactly if `v` lies less than `u` after the start of its step. -/
theorem C246_coarser (xI : List ℤ) (y : List (ℤ × (Fin T → ℚ))) (names : Fin T → N) (m : Fitted N T) (h : fit xI y names = .ok m) (u U : ℤ) (hpos : 0 < u)
    (hU : 0 < U) (huU : u ∣ U) (hd : U ∣ day) (hu : samplingTime xI = some u) (v : ℤ) (j : Fin T) :
    Bench.discPredict m.rows (cellOf U v) j = shrunkMean (slotValues u y j (v - v % U)) ∧
    ((v - v % U) % day / u = v % day / u ↔ v % U < u) := by
  refine ⟨?_, ?_⟩
  · rw [mod_floor u U v hU huU hpos]
    exact C246_same_step xI y names m h u hpos (huU.trans hd) hu _ j
  · have h0 := cellOf_eq U v hU hd
    rw [mod_floor u U v hU huU hpos, cellOf_mul u _ hpos (huU.trans hd), Int.emod_emod_of_dvd v hd] at h0
    have h1 : (v % day) % u = v % u := Int.emod_emod_of_dvd v (huU.trans hd)
    have h2 := Int.emod_add_mul_ediv (v % day) u
    rw [h1] at h2
    have h3 : v % U % u = v % u := Int.emod_emod_of_dvd v huU
    rw [← slot_iff u hpos, h0]
    have h4 := Int.emod_nonneg v hU.ne'
    constructor
    · intro h5
      have h6 : v % U = v % u := by linarith
      rw [h6]
      exact Int.emod_lt_of_pos v hpos
    · intro h5
      have h6 : v % U = v % u := by rw [← h3, Int.emod_eq_of_lt h4 h5]
      linarith

/-- **C246.** Defect: asked on a finer frame, sampling time `U` a divisor of `u`, a time gets its forecast only if it lies in the first step of its slot; at
all other times the forecast is 0. -/
theorem C246_finer (xI : List ℤ) (y : List (ℤ × (Fin T → ℚ))) (names : Fin T → N) (m : Fitted N T) (h : fit xI y names = .ok m) (u U : ℤ) (hpos : 0 < u)
    (hU : 0 < U) (hUu : U ∣ u) (hd : u ∣ day) (hu : samplingTime xI = some u) (v : ℤ) (j : Fin T) :
    Bench.discPredict m.rows (cellOf U v) j = if v % u < U then shrunkMean (slotValues u y j v) else 0 := by
  have h1 : (v % day) % u = v % u := Int.emod_emod_of_dvd v hd
  have h2 := Int.emod_add_mul_ediv (v % day) u
  rw [h1] at h2
  have h3 : v % day % U = v % U := Int.emod_emod_of_dvd v (hUu.trans hd)
  have h4 : v % u % U = v % U := Int.emod_emod_of_dvd v hUu
  have h5 := Int.emod_nonneg v hpos.ne'
  have h6 := Int.emod_lt_of_pos v hpos
  split
  · rename_i hlt
    have h7 : v % u = v % U := by rw [← h4, Int.emod_eq_of_lt h5 hlt]
    have h8 : cellOf U v = cellOf u v := by
      rw [cellOf_eq U v hU (hUu.trans hd), cellOf_eq u v hpos hd, h3, h1, h7]
    rw [h8]
    exact C246_same_step xI y names m h u hpos hd hu v j
  · rename_i hge
    push Not at hge
    rw [(fit_rows xI y names m h u hu).1, forecast_at u y j _ []]
    · simp [shrunkMean]
    · rw [List.map_eq_nil_iff, List.filter_eq_nil_iff]
      intro r _
      rw [decide_eq_true_eq, cellOf_mul u _ hpos hd, cellOf_eq U v hU (hUu.trans hd), h3]
      intro he
      have h7 : v % u - v % U = u * (r.1 % day / u - v % day / u) := by rw [mul_sub]; linarith
      have h8 := Int.emod_nonneg v hU.ne'
      have h9 := Int.emod_lt_of_pos v hU
      have h10 : 0 < r.1 % day / u - v % day / u := by
        by_contra hn
        push Not at hn
        nlinarith
      have h11 : u ≤ u * (r.1 % day / u - v % day / u) := by nlinarith
      linarith

/-! ### Layout -/

variable [LinearOrder N]

theorem targetOrder_perm (names : Fin T → N) : (targetOrder names).Perm (List.finRange T) := List.perm_insertionSort _ _

/-- **C247.** The forecast frame: it is refused exactly if all stamps of the frame are equal, for example for a single row. Otherwise its rows are numbered
from 0, in place of the stamps; its columns are the names of the targets in alphabetical order, and the entries of a column are the forecasts of the
target of that name. -/
theorem C247_frame (m : Fitted N T) (xI : List ℤ) :
    (predict m xI = .error .valueError ↔ ∀ a ∈ xI, ∀ b ∈ xI, a = b) ∧
    ∀ o, predict m xI = .ok o → o.index = List.range xI.length ∧ o.columns.Pairwise (· ≤ ·) ∧ o.columns.Perm (List.ofFn m.names) ∧
      ∀ u, samplingTime xI = some u → ∀ (i : ℕ) (hi : i < xI.length) (p : ℕ) (j : Fin T), Function.Injective m.names → o.columns[p]? = some (m.names j) →
        (o.values[i]?.bind (fun r => r[p]?)) = some (Bench.discPredict m.rows (cellOf u xI[i]) j) := by
  unfold predict
  rw [← (C244_undefined xI).2]
  cases hst : samplingTime xI with
  | none => exact ⟨⟨fun _ => rfl, fun _ => rfl⟩, fun o ho => by simp at ho⟩
  | some u =>
    refine ⟨⟨fun h => by simp at h, fun h => by simp at h⟩, ?_⟩
    intro o ho
    have ho2 := Except.ok.inj ho
    subst ho2
    refine ⟨rfl, ?_, ?_, ?_⟩
    · simp only
      rw [List.pairwise_map]
      have : Std.Total (fun i j => m.names i ≤ m.names j) := ⟨fun a b => le_total _ _⟩
      have : IsTrans (Fin T) (fun i j => m.names i ≤ m.names j) := ⟨fun a b c => le_trans⟩
      exact List.pairwise_insertionSort (fun i j => m.names i ≤ m.names j) _
    · simp only
      have := (targetOrder_perm m.names).map m.names
      rwa [← List.ofFn_eq_map] at this
    · intro u' hu' i hi p j hinj hp
      have hu2 := Option.some.inj hu'
      subst hu2
      simp only at hp ⊢
      rw [List.getElem?_map] at hp
      rw [List.getElem?_map, List.getElem?_eq_getElem hi]
      simp only [Option.map_some, Option.bind_some, List.getElem?_map]
      cases hq : (targetOrder m.names)[p]? with
      | none => rw [hq] at hp; simp at hp
      | some j' =>
        rw [hq] at hp
        have := hinj (Option.some.inj hp)
        rw [this]
        rfl

/-- **C247.** Defect: the columns come in the order of the training targets exactly if their names are in alphabetical order. -/
theorem C247_order_iff (m : Fitted N T) (xI : List ℤ) (o : Out N) (h : predict m xI = .ok o) :
    o.columns = List.ofFn m.names ↔ ∀ i j, i ≤ j → m.names i ≤ m.names j := by
  have hp := (C247_frame m xI).2 o h
  have hc : o.columns = (targetOrder m.names).map m.names := by
    unfold predict at h
    cases hst : samplingTime xI with
    | none => rw [hst] at h; simp at h
    | some u =>
      rw [hst] at h
      rw [← Except.ok.inj h]
  constructor
  · intro he
    have h1 := hp.2.1
    rw [he] at h1
    intro i j hij
    rcases lt_or_eq_of_le hij with hlt | rfl
    · have h2 := List.pairwise_iff_getElem.1 h1 i j (by simp) (by simp) hlt
      simpa using h2
    · exact le_refl _
  · intro hm
    rw [hc, List.ofFn_eq_map]
    congr 1
    unfold targetOrder
    apply List.Pairwise.insertionSort_eq
    rw [List.pairwise_iff_getElem]
    intro i j hi hj hij
    apply hm
    simp only [List.getElem_finRange]
    exact Fin.le_def.2 (by simpa using hij.le)

/-- **C246.** The slots repeat every 24 hours of 60 minutes of 60 seconds and no sooner: the rows averaged are those whose stamp, reduced by whole days, lies in the same slot. -/
theorem C246_daily (xI : List ℤ) (y : List (ℤ × (Fin T → ℚ))) (names : Fin T → N) (m : Fitted N T) (h : fit xI y names = .ok m) (u : ℤ) (hpos : 0 < u)
    (hd : u ∣ 24 * 60 * 60 * 10 ^ 9) (hu : samplingTime xI = some u) (v : ℤ) (j : Fin T) :
    Bench.discPredict m.rows (cellOf u v) j
      = shrunkMean ((y.filter (fun r => r.1 % (24 * 60 * 60 * 10 ^ 9) / u = v % (24 * 60 * 60 * 10 ^ 9) / u)).map (fun r => r.2 j)) := by
  have e : (24 * 60 * 60 * 10 ^ 9 : ℤ) = day := by unfold day; norm_num
  rw [e] at hd ⊢
  exact C246_same_step xI y names m h u hpos hd hu v j

end PyF.Sampling
