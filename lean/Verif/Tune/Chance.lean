import Verif.Tune.Props
import Mathlib.Data.Fintype.BigOperators
import Mathlib.Data.Fintype.Pi
import Mathlib.Tactic.FieldSimp
import Mathlib.Tactic.Ring
import Mathlib.Tactic.Linarith

/-! C311: the chance that a random search ends among the best parameters. -/

namespace PyF.Tune

open PyF

variable {N σ : Type} [DecidableEq N]

/-- The random numbers of the `n` trials, `dec a` being those that the outcome `a` of the generator stands for. -/
def numbers {A : Type} {n : ℕ} (dec : A → ℕ → ℕ → ℚ) (ω : Fin n → A) (i : ℕ) : ℕ → ℕ → ℚ := if h : i < n then dec (ω ⟨i, h⟩) else fun _ _ => 0

/-- The trial of the outcome `a` scores `s` or better on its own. -/
def GoodTrial {A : Type} (C : Cls N σ) (x : Frame N) (kw : Kw N) (hyper : List (N × Lim)) (dec : A → ℕ → ℕ → ℚ) (s : ℚ) (a : A) : Prop :=
  ∃ q, aloneScore C { kw with optimize := false } x (trialOf hyper (dec a)) (some q) ∧ q ≤ s

/-- The search ends with the parameters of a trial that scores `s` or better on its own. -/
def GoodEnd {A : Type} {n : ℕ} (C : Cls N σ) (x : Frame N) (kw : Kw N) (hyper : List (N × Lim)) (dec : A → ℕ → ℕ → ℚ) (s : ℚ) (ω : Fin n → A) : Prop :=
  ∃ o kw' t q, tune C x (cartridge hyper n (numbers dec ω)) true kw = .ok (o, kw') ∧ mk C kw' = .ok o ∧ kw' = ({ kw with optimize := false } : Kw N).update t ∧
    t ∈ cartridge hyper n (numbers dec ω) ∧ aloneScore C { kw with optimize := false } x t (some q) ∧ q ≤ s

theorem trials_get {A : Type} {n : ℕ} (hyper : List (N × Lim)) (dec : A → ℕ → ℕ → ℚ) (ω : Fin n → A) (i : Fin n) :
    (cartridge hyper n (numbers dec ω))[i.val]? = some (trialOf hyper (dec (ω i))) := by
  unfold cartridge numbers
  rw [List.getElem?_map, List.getElem?_range i.isLt]
  simp

theorem trials_mem {A : Type} {n : ℕ} (hyper : List (N × Lim)) (dec : A → ℕ → ℕ → ℚ) (ω : Fin n → A) (t : List (N × Val)) :
    t ∈ cartridge hyper n (numbers dec ω) ↔ ∃ i : Fin n, t = trialOf hyper (dec (ω i)) := by
  constructor
  · intro h
    unfold cartridge at h
    obtain ⟨i, hi, rfl⟩ := List.mem_map.1 h
    rw [List.mem_range] at hi
    exact ⟨⟨i, hi⟩, by unfold numbers; rw [dif_pos hi]⟩
  · rintro ⟨i, rfl⟩
    exact List.mem_of_getElem? (trials_get hyper dec ω i)

theorem goodEnd_iff {A : Type} {n : ℕ} (C : Cls N σ) (x : Frame N) (kw : Kw N) (hyper : List (N × Lim)) (dec : A → ℕ → ℕ → ℚ) (s : ℚ) (ω : Fin n → A)
    (hok : ∃ r, tune C x (cartridge hyper n (numbers dec ω)) true kw = .ok r) (hnan : ∀ a, ¬ aloneScore C { kw with optimize := false } x (trialOf hyper (dec a)) none) :
    GoodEnd C x kw hyper dec s ω ↔ ∃ i, GoodTrial C x kw hyper dec s (ω i) := by
  constructor
  · rintro ⟨o, kw', t, q, -, -, -, ht, hq, hs⟩
    obtain ⟨i, rfl⟩ := (trials_mem hyper dec ω t).1 ht
    exact ⟨i, q, hq, hs⟩
  · rintro ⟨i, q, hq, hs⟩
    obtain ⟨⟨o, kw'⟩, h⟩ := hok
    obtain ⟨b, t, q', hb, hq', hk, hm, hall⟩ := C152_best_trial C x _ kw kw' o h (by
      intro t ht
      obtain ⟨j, rfl⟩ := (trials_mem hyper dec ω t).1 ht
      exact hnan _)
    obtain ⟨v, hv, hle, -⟩ := hall i _ (trials_get hyper dec ω i)
    have : v = q := by
      obtain ⟨k1, e1⟩ := hv
      obtain ⟨k2, e2⟩ := hq
      rw [e1] at e2
      cases e2
      rfl
    exact ⟨o, kw', t, q', h, hm, hk, List.mem_of_getElem? hb, hq', by rw [this] at hle; exact hle.trans hs⟩

open Classical in
/-- C311: let the generator produce every one of finitely many outcomes with the same chance, independently for the `n` trials, and the trials of a share `p` of them score `s` or better on
their own. If the search never fails and no score is NaN, it ends with parameters that score `s` or better with probability `1 - (1 - p)^n`. -/
theorem C311_chance {A : Type} [Fintype A] [Nonempty A] {n : ℕ} (C : Cls N σ) (x : Frame N) (kw : Kw N) (hyper : List (N × Lim)) (dec : A → ℕ → ℕ → ℚ) (s p : ℚ)
    (hok : ∀ ω : Fin n → A, ∃ r, tune C x (cartridge hyper n (numbers dec ω)) true kw = .ok r)
    (hnan : ∀ a, ¬ aloneScore C { kw with optimize := false } x (trialOf hyper (dec a)) none)
    (hp : p * Fintype.card A = (Finset.univ.filter (fun a => GoodTrial C x kw hyper dec s a)).card) :
    ((Finset.univ.filter (fun ω : Fin n → A => GoodEnd C x kw hyper dec s ω)).card : ℚ) / Fintype.card (Fin n → A) = 1 - (1 - p) ^ n := by
  have hA : (Fintype.card A : ℚ) ≠ 0 := by exact_mod_cast Fintype.card_ne_zero
  set B : Finset A := Finset.univ.filter (fun a => ¬ GoodTrial C x kw hyper dec s a) with hB
  have hsplit := Finset.card_filter_add_card_filter_not (s := (Finset.univ : Finset A)) (fun a => GoodTrial C x kw hyper dec s a)
  have hbad : (Finset.univ.filter (fun ω : Fin n → A => ¬ GoodEnd C x kw hyper dec s ω)) = Fintype.piFinset (fun _ : Fin n => B) := by
    ext ω
    rw [Finset.mem_filter, Fintype.mem_piFinset, goodEnd_iff C x kw hyper dec s ω (hok ω) hnan]
    simp [hB]
  have hsplit2 := Finset.card_filter_add_card_filter_not (s := (Finset.univ : Finset (Fin n → A))) (fun ω => GoodEnd C x kw hyper dec s ω)
  rw [hbad, Fintype.card_piFinset, Finset.prod_const, Finset.card_univ, Fintype.card_fin, Finset.card_univ] at hsplit2
  rw [Finset.card_univ] at hsplit
  have e1 : (B.card : ℚ) = (1 - p) * Fintype.card A := by
    have : ((Finset.univ.filter (fun a => GoodTrial C x kw hyper dec s a)).card : ℚ) + B.card = Fintype.card A := by exact_mod_cast hsplit
    linarith
  have e2 : ((Finset.univ.filter (fun ω : Fin n → A => GoodEnd C x kw hyper dec s ω)).card : ℚ) + (B.card : ℚ) ^ n = (Fintype.card A : ℚ) ^ n := by
    have := hsplit2
    rw [Fintype.card_fun, Fintype.card_fin] at this
    exact_mod_cast this
  rw [Fintype.card_fun, Fintype.card_fin]
  push_cast
  rw [e1, mul_pow] at e2
  rw [div_eq_iff (pow_ne_zero _ hA)]
  linarith

end PyF.Tune
