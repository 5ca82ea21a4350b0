import Verif.BigData.Model
import Mathlib.Data.Rat.Defs
import Mathlib.Algebra.Order.Field.Rat
import Mathlib.Tactic.NormNum
import Mathlib.Tactic.Linarith
import Mathlib.Tactic.Ring
import Mathlib.Algebra.Order.Field.Power

/-!
Memory reduction, big_data_utils.py L128-190.
-/

namespace PyF.BigData

open PyF

theorem wrap_id (b : Nat) (hb : 0 < b) (v : Int) (h : fits b v = true) : wrap b v = v := by
  unfold fits at h
  rw [Bool.and_eq_true, decide_eq_true_iff, decide_eq_true_iff] at h
  unfold wrap
  have e : (2 : Int) ^ b = 2 * 2 ^ (b - 1) := by
    conv_lhs => rw [show b = b - 1 + 1 by omega, pow_succ]
    ring
  rw [e]
  generalize (2 : Int) ^ (b - 1) = p at *
  rw [Int.emod_eq_of_lt (by omega) (by omega)]
  omega

theorem wrap_map (b : Nat) (hb : 0 < b) (vs : List Int) (h : vs.all (fits b) = true) : vs.map (wrap b) = vs := by
  rw [List.all_eq_true] at h
  conv_rhs => rw [← List.map_id vs]
  exact List.map_congr_left (fun v hv => wrap_id b hb v (h v hv))

/-- The values an integer type of `b` bits can hold. -/
def InRange (b : Nat) (v : Int) : Prop := -(2 : Int) ^ (b - 1) ≤ v ∧ v ≤ 2 ^ (b - 1) - 1

/-- Neither the least nor the greatest value of the type. -/
def Inner (b : Nat) (v : Int) : Prop := -(2 : Int) ^ (b - 1) < v ∧ v < 2 ^ (b - 1) - 1

theorem fits_iff (b : Nat) (v : Int) : fits b v = true ↔ Inner b v := by
  unfold fits Inner
  rw [Bool.and_eq_true, decide_eq_true_iff, decide_eq_true_iff]

theorem all_fits (b : Nat) (vs : List Int) : vs.all (fits b) = true ↔ ∀ v ∈ vs, Inner b v := by
  rw [List.all_eq_true]
  exact forall₂_congr (fun v _ => fits_iff b v)

/-- C67: reducing an integer column never changes a value. The new type is the first among 8, 16, 32 and 64 bits that holds all values strictly inside its
range, and the old one when there is none; so it only grows when the column holds the least or the greatest value of its type. A second reduction changes
nothing. -/
theorem C67_integers (b : Nat) (vs : List Int) (hb : b = 8 ∨ b = 16 ∨ b = 32 ∨ b = 64) (hr : ∀ v ∈ vs, InRange b v) :
    (reduceInt b vs).2 = vs ∧
    ((reduceInt b vs).1 = 8 ∨ (reduceInt b vs).1 = 16 ∨ (reduceInt b vs).1 = 32 ∨ (reduceInt b vs).1 = 64) ∧
    ((∀ v ∈ vs, Inner (reduceInt b vs).1 v) ∨ ((reduceInt b vs).1 = 64 ∧ b = 64)) ∧
    (vs ≠ [] → ∀ c, (c = 8 ∨ c = 16 ∨ c = 32) → (∀ v ∈ vs, Inner c v) → (reduceInt b vs).1 ≤ c) ∧
    ((reduceInt b vs).1 ≤ b ∨ ∃ v ∈ vs, v = -(2 : Int) ^ (b - 1) ∨ v = 2 ^ (b - 1) - 1) ∧
    reduceInt (reduceInt b vs).1 (reduceInt b vs).2 = reduceInt b vs := by
  cases vs with
  | nil => exact ⟨rfl, by simp [reduceInt, hb], by simp, by simp, by simp [reduceInt], rfl⟩
  | cons w ws =>
    generalize hvs : w :: ws = vs at *
    have hne : vs ≠ [] := by rw [← hvs]; simp
    have hred : ∀ b, reduceInt b vs = if vs.all (fits 8) then (8, vs) else if vs.all (fits 16) then (16, vs) else if vs.all (fits 32) then (32, vs) else if vs.all (fits 64) then (64, vs) else (b, vs) := by
      intro b
      rw [← hvs]
      unfold reduceInt
      simp only
      split
      · rename_i h; rw [wrap_map 8 (by norm_num) _ h]
      · split
        · rename_i h; rw [wrap_map 16 (by norm_num) _ h]
        · split
          · rename_i h; rw [wrap_map 32 (by norm_num) _ h]
          · split
            · rename_i h; rw [wrap_map 64 (by norm_num) _ h]
            · rfl
    have hgrow : ¬ (∃ v ∈ vs, v = -(2 : Int) ^ (b - 1) ∨ v = 2 ^ (b - 1) - 1) → vs.all (fits b) = true := by
      intro h
      rw [all_fits]
      intro v hv
      have h1 := hr v hv
      unfold InRange at h1
      unfold Inner
      have h2 : v ≠ -(2 : Int) ^ (b - 1) := fun e => h ⟨v, hv, Or.inl e⟩
      have h3 : v ≠ 2 ^ (b - 1) - 1 := fun e => h ⟨v, hv, Or.inr e⟩
      omega
    have mono : ∀ c, c ≤ b → 0 < c → vs.all (fits c) = true → vs.all (fits b) = true := by
      intro c hc h0 h
      rw [all_fits] at h ⊢
      intro v hv
      have := h v hv
      unfold Inner at *
      have hp : (2 : Int) ^ (c - 1) ≤ 2 ^ (b - 1) := pow_le_pow_right₀ (by norm_num) (by omega)
      omega
    have no64 : vs.all (fits 64) = false → b = 64 := by
      intro h
      by_contra hb64
      have : vs.all (fits 64) = true := by
        rw [all_fits]
        intro v hv
        have h1 := hr v hv
        unfold InRange at h1
        unfold Inner
        rcases hb with rfl | rfl | rfl | rfl <;> norm_num at * <;> omega
      rw [this] at h; cases h
    have n8 : vs.all (fits 8) = true ↔ ∀ v ∈ vs, Inner 8 v := all_fits 8 vs
    have n16 : vs.all (fits 16) = true ↔ ∀ v ∈ vs, Inner 16 v := all_fits 16 vs
    have n32 : vs.all (fits 32) = true ↔ ∀ v ∈ vs, Inner 32 v := all_fits 32 vs
    have n64 : vs.all (fits 64) = true ↔ ∀ v ∈ vs, Inner 64 v := all_fits 64 vs
    have hb8 : 8 ≤ b := by omega
    by_cases h8 : vs.all (fits 8) = true
    · have hval : ∀ b, reduceInt b vs = (8, vs) := fun b => by rw [hred, if_pos h8]
      rw [hval b]
      refine ⟨rfl, by norm_num, Or.inl (n8.1 h8), ?_, Or.inl hb8, hval _⟩
      intro _ c hc _; omega
    · by_cases h16 : vs.all (fits 16) = true
      · have hval : ∀ b, reduceInt b vs = (16, vs) := fun b => by rw [hred, if_neg h8, if_pos h16]
        rw [hval b]
        refine ⟨rfl, by norm_num, Or.inl (n16.1 h16), ?_, ?_, hval _⟩
        · rintro _ c hc hi
          rcases hc with rfl | rfl | rfl
          · exact absurd (n8.2 hi) h8
          · omega
          · omega
        · by_cases hg : ∃ v ∈ vs, v = -(2 : Int) ^ (b - 1) ∨ v = 2 ^ (b - 1) - 1
          · exact Or.inr hg
          · have := hgrow hg
            left
            rcases hb with rfl | rfl | rfl | rfl
            · exact absurd this h8
            all_goals norm_num
      · by_cases h32 : vs.all (fits 32) = true
        · have hval : ∀ b, reduceInt b vs = (32, vs) := fun b => by rw [hred, if_neg h8, if_neg h16, if_pos h32]
          rw [hval b]
          refine ⟨rfl, by norm_num, Or.inl (n32.1 h32), ?_, ?_, hval _⟩
          · rintro _ c hc hi
            rcases hc with rfl | rfl | rfl
            · exact absurd (n8.2 hi) h8
            · exact absurd (n16.2 hi) h16
            · omega
          · by_cases hg : ∃ v ∈ vs, v = -(2 : Int) ^ (b - 1) ∨ v = 2 ^ (b - 1) - 1
            · exact Or.inr hg
            · have := hgrow hg
              left
              rcases hb with rfl | rfl | rfl | rfl
              · exact absurd this h8
              · exact absurd this h16
              all_goals norm_num
        · have hlast : ∀ c, (c = 8 ∨ c = 16 ∨ c = 32) → (∀ v ∈ vs, Inner c v) → False := by
            rintro c hc hi
            rcases hc with rfl | rfl | rfl
            · exact h8 (n8.2 hi)
            · exact h16 (n16.2 hi)
            · exact h32 (n32.2 hi)
          by_cases h64 : vs.all (fits 64) = true
          · have hval : ∀ b, reduceInt b vs = (64, vs) := fun b => by rw [hred, if_neg h8, if_neg h16, if_neg h32, if_pos h64]
            rw [hval b]
            refine ⟨rfl, by norm_num, Or.inl (n64.1 h64), fun _ c hc hi => absurd (hlast c hc hi) id, ?_, hval _⟩
            by_cases hg : ∃ v ∈ vs, v = -(2 : Int) ^ (b - 1) ∨ v = 2 ^ (b - 1) - 1
            · exact Or.inr hg
            · have := hgrow hg
              left
              rcases hb with rfl | rfl | rfl | rfl
              · exact absurd this h8
              · exact absurd this h16
              · exact absurd this h32
              · norm_num
          · have h64' : vs.all (fits 64) = false := by simpa using h64
            have hval : ∀ b, reduceInt b vs = (b, vs) := fun b => by rw [hred, if_neg h8, if_neg h16, if_neg h32, if_neg h64]
            rw [hval b]
            refine ⟨rfl, hb, Or.inr ⟨no64 h64', no64 h64'⟩, fun _ c hc hi => absurd (hlast c hc hi) id, Or.inl le_rfl, hval _⟩

/-- Values a 32 bit float can hold (24 bits of mantissa; the range of the exponent is left out). -/
def Rep (x : ℚ) : Prop := ∃ (m e : Int), |m| < 2 ^ 24 ∧ x = m * (2 : ℚ) ^ e

/-- What a conversion to 32 bit floats does: results are representable and representable values are kept. -/
structure Rounds (r32 : ℚ → ℚ) : Prop where
  rep : ∀ x, Rep (r32 x)
  keep : ∀ x, Rep x → r32 x = x

/-- C114: a float column is stored in 32 bits iff it has an entry that is not NaN, no infinity and all entries in the range; then values that have more than 24
significant bits are changed, so the column keeps its values iff all are representable. NaN entries stay where they are, and a second reduction keeps the values. -/
theorem C114_floats (small : ℚ → Bool) (r32 : ℚ → ℚ) (hR : Rounds r32) (vs : List (Fl ℚ)) :
    ((reduceFloat small r32 vs).1 = 32 ↔ (∃ v ∈ vs, v ≠ .nan) ∧ ∀ v ∈ vs, v = .nan ∨ ∃ x, v = .fin x ∧ small x = true) ∧
    ((reduceFloat small r32 vs).1 = 32 ∨ (reduceFloat small r32 vs).1 = 64) ∧
    ((reduceFloat small r32 vs).2 = vs ↔ (reduceFloat small r32 vs).1 = 64 ∨ ∀ x, Fl.fin x ∈ vs → Rep x) ∧
    (∀ i : Nat, (reduceFloat small r32 vs).2[i]? = some .nan ↔ vs[i]? = some .nan) ∧
    (reduceFloat small r32 (reduceFloat small r32 vs).2).2 = (reduceFloat small r32 vs).2 := by
  classical
  have hdef : ∀ vs, reduceFloat small r32 vs = if vs.any Fl.seen && !vs.any (Fl.bad small) then (32, vs.map (Fl.cast r32)) else (64, vs) := fun _ => rfl
  have castcast : ∀ v, Fl.cast r32 (Fl.cast r32 v) = Fl.cast r32 v := by
    intro v
    cases v with
    | nan => rfl
    | inf p => rfl
    | fin x => simp only [Fl.cast]; rw [hR.keep _ (hR.rep x)]
  have casteq : ∀ v, Fl.cast r32 v = v ↔ ∀ x, v = .fin x → Rep x := by
    intro v
    cases v with
    | nan => simp [Fl.cast]
    | inf p => simp [Fl.cast]
    | fin x =>
      simp only [Fl.cast, Fl.fin.injEq, forall_eq']
      exact ⟨fun h => h ▸ hR.rep x, fun h => hR.keep x h⟩
  have castnan : ∀ v, Fl.cast r32 v = .nan ↔ v = .nan := by
    intro v
    cases v <;> simp [Fl.cast]
  have hcond : (vs.any Fl.seen && !vs.any (Fl.bad small)) = true ↔ (∃ v ∈ vs, v ≠ .nan) ∧ ∀ v ∈ vs, v = .nan ∨ ∃ x, v = .fin x ∧ small x = true := by
    rw [Bool.and_eq_true, List.any_eq_true, Bool.not_eq_true', List.any_eq_false]
    refine and_congr (exists_congr fun v => and_congr_right fun _ => ?_) (forall₂_congr fun v _ => ?_)
    · cases v <;> simp [Fl.seen]
    · cases v with
      | nan => simp [Fl.bad]
      | inf p => simp [Fl.bad]
      | fin x => simp only [Fl.bad]; cases h : small x <;> simp [h]
  by_cases hc : (vs.any Fl.seen && !vs.any (Fl.bad small)) = true
  · have hv : reduceFloat small r32 vs = (32, vs.map (Fl.cast r32)) := by rw [hdef, if_pos hc]
    rw [hv]
    refine ⟨⟨fun _ => hcond.1 hc, fun _ => rfl⟩, Or.inl rfl, ?_, ?_, ?_⟩
    · simp only [show ¬ (32 : Nat) = 64 by norm_num, false_or]
      have hid : vs.map (Fl.cast r32) = vs ↔ ∀ v ∈ vs, Fl.cast r32 v = v := by
        conv_lhs => rhs; rw [← List.map_id vs]
        rw [List.map_inj_left]; rfl
      rw [hid]
      constructor
      · intro h x hx; exact (casteq _).1 (h _ hx) x rfl
      · intro h v hv; exact (casteq v).2 (fun x hx => h x (hx ▸ hv))
    · intro i
      rw [List.getElem?_map]
      cases vs[i]? with
      | none => simp
      | some v => simpa using castnan v
    · rw [hdef]
      split
      · simp only [List.map_map]
        exact List.map_congr_left (fun v _ => castcast v)
      · rfl
  · have hv : reduceFloat small r32 vs = (64, vs) := by rw [hdef, if_neg hc]
    rw [hv]
    refine ⟨⟨fun h => absurd h (by norm_num), fun h => absurd (hcond.2 h) hc⟩, Or.inr rfl, by simp, fun i => Iff.rfl, by simp only [hv]⟩

/-- `2^24 + 1` has 25 significant bits. -/
theorem not_rep : ¬ Rep 16777217 := by
  rintro ⟨m, e, hm, hx⟩
  rw [abs_lt] at hm
  rcases le_or_gt 0 e with he | he
  · obtain ⟨k, rfl⟩ := Int.eq_ofNat_of_zero_le he
    have h1 : (16777217 : ℤ) = m * 2 ^ k := by
      have : ((16777217 : ℤ) : ℚ) = ((m * 2 ^ k : ℤ) : ℚ) := by push_cast; rw [← zpow_natCast]; exact hx
      exact_mod_cast this
    cases k with
    | zero => simp at h1; omega
    | succ k => rw [pow_succ, ← mul_assoc] at h1; omega
  · obtain ⟨k, hk⟩ : ∃ k : Nat, -e = k + 1 := ⟨(-e - 1).toNat, by omega⟩
    have h1 : (16777217 : ℤ) * 2 ^ (k + 1) = m := by
      have h2 : (2 : ℚ) ^ e * 2 ^ (k + 1) = 1 := by
        rw [← zpow_natCast, ← zpow_add₀ (by norm_num)]
        have : e + ((k + 1 : ℕ) : ℤ) = 0 := by push_cast; omega
        rw [this, zpow_zero]
      have : ((16777217 * 2 ^ (k + 1) : ℤ) : ℚ) = ((m : ℤ) : ℚ) := by
        push_cast
        rw [hx, mul_assoc, h2, mul_one]
      exact_mod_cast this
    have h3 : (1 : ℤ) ≤ 2 ^ (k + 1) := one_le_pow₀ (by norm_num)
    nlinarith

/-- C67 (caller): without parallel processing the columns are replaced inside the frame of the caller, which is also the result; labels are kept and no integer column changes
its values, and columns of other types are left alone. -/
theorem C67_caller_changed {C : Type} (small : ℚ → Bool) (r32 : ℚ → ℚ) (cols : List (C × Col ℚ)) :
    (reduceSeq small r32 cols).1 = (reduceSeq small r32 cols).2 ∧ (reduceSeq small r32 cols).2.map Prod.fst = cols.map Prod.fst ∧
    ∀ (i : Nat) c t, cols[i]? = some (c, .other t) → (reduceSeq small r32 cols).1[i]? = some (c, .other t) := by
  refine ⟨rfl, by simp [reduceSeq], ?_⟩
  intro i c t h
  simp [reduceSeq, h, reduceCol]

end PyF.BigData
