import Verif.Split.Model
import Mathlib.Tactic.Linarith
import Mathlib.Algebra.Order.Floor.Ring

/-!
Property C12: the train/validation split.
-/

namespace PyF.Split

theorem split_bounds {n : Nat} {r : ℚ} (h0 : 0 ≤ r) (h1 : r ≤ 1) :
    truncQ ((n : ℚ) * r) = ⌊(n : ℚ) * r⌋ ∧ 0 ≤ ⌊(n : ℚ) * r⌋ ∧ ⌊(n : ℚ) * r⌋ ≤ n := by
  have hn : (0 : ℚ) ≤ n := Nat.cast_nonneg n
  have h2 : 0 ≤ (n : ℚ) * r := mul_nonneg hn h0
  refine ⟨by rw [truncQ, if_neg (not_lt.2 h2)], Int.floor_nonneg.2 h2, ?_⟩
  have h3 : (n : ℚ) * r ≤ n := by nlinarith
  have := Int.floor_le_floor h3
  simpa using this

/-- **C12 (a).** With a ratio in `[0,1]`, for frames of the same length: train followed by validation is
the original data, in features and in targets; the validation part has exactly `⌊n * ratio⌋` rows in
both, so row `i` of a part still pairs the same feature and target rows. -/
theorem C12_tail_split {X Y : Type} (r : ℚ) (h0 : 0 ≤ r) (h1 : r ≤ 1) (x : List X) (y : List Y)
    (hxy : x.length = y.length) :
    ∃ xt yt xv yv, trainValSplit (some r) x y = (xt, yt, xv, yv) ∧
      xt ++ xv = x ∧ yt ++ yv = y ∧
      (xv.length : Int) = ⌊(x.length : ℚ) * r⌋ ∧ yv.length = xv.length ∧ yt.length = xt.length := by
  obtain ⟨e1, e2, e3⟩ := split_bounds (n := x.length) h0 h1
  have hb : ∀ m : Nat, m = x.length → bound m ((x.length : Int) - truncQ ((x.length : ℚ) * r))
      = (((x.length : Int) - ⌊(x.length : ℚ) * r⌋)).toNat := by
    rintro m rfl
    rw [e1, bound, if_neg (by omega)]
    omega
  refine ⟨_, _, _, _, rfl, List.take_append_drop _ _, List.take_append_drop _ _, ?_, ?_, ?_⟩
  · simp only [sliceFrom, List.length_drop]; rw [hb _ rfl]; omega
  · simp only [sliceFrom, List.length_drop]; rw [hb _ rfl, hb _ hxy.symm]; omega
  · simp only [sliceTo, List.length_take]; rw [hb _ rfl, hb _ hxy.symm]; omega

/-- **C12 (b).** Without a ratio both parts are the whole data. -/
theorem C12_no_ratio {X Y : Type} (x : List X) (y : List Y) : trainValSplit none x y = (x, y, x, y) := rfl

/-- **C12 (c).** A positive ratio below `1/n` silently gives an empty validation set (the post-fit phase
then has no rows). -/
theorem C12_small_ratio_empty {X Y : Type} (r : ℚ) (h0 : 0 ≤ r) (x : List X) (y : List Y)
    (hr : (x.length : ℚ) * r < 1) (h1 : r ≤ 1) (hxy : x.length = y.length) :
    trainValSplit (some r) x y = (x, y, [], []) := by
  obtain ⟨xt, yt, xv, yv, he, h2, h3, h4, h5, -⟩ := C12_tail_split r h0 h1 x y hxy
  have hz : ⌊(x.length : ℚ) * r⌋ = 0 := by
    rw [Int.floor_eq_iff]
    exact ⟨by push_cast; exact mul_nonneg (Nat.cast_nonneg _) h0, by simpa using hr⟩
  rw [hz] at h4
  have hx0 : xv = [] := List.length_eq_zero_iff.1 (by omega)
  have hy0 : yv = [] := List.length_eq_zero_iff.1 (by omega)
  subst hx0; subst hy0
  simp at h2 h3
  rw [he, h2, h3]

/-! ### Concrete instances -/

example : trainValSplit (some (3/10)) [1, 2, 3, 4, 5] ["a", "b", "c", "d", "e"]
    = ([1, 2, 3, 4], ["a", "b", "c", "d"], [5], ["e"]) := by decide +kernel

example : (0 : ℚ) ≤ 3/10 ∧ (3/10 : ℚ) ≤ 1 := by norm_num

end PyF.Split
