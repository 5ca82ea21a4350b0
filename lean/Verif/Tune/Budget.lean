import Verif.Tune.Props

/-!
Searches with more trials.
-/

namespace PyF.Tune

open PyF

variable {N σ : Type} [DecidableEq N]

omit [DecidableEq N] in
theorem cartridge_get (hyper : List (N × Lim)) (n : ℕ) (u : ℕ → ℕ → ℕ → ℚ) (i : ℕ) (h : i < n) :
    (cartridge hyper n u)[i]? = some (trialOf hyper (u i)) := by
  unfold cartridge
  rw [List.getElem?_map, List.getElem?_range h]
  rfl

omit [DecidableEq N] in
theorem cartridge_lt (hyper : List (N × Lim)) (n : ℕ) (u : ℕ → ℕ → ℕ → ℚ) (i : ℕ) (t : List (N × Val)) (h : (cartridge hyper n u)[i]? = some t) :
    i < n ∧ t = trialOf hyper (u i) := by
  have hi : i < n := by
    have := (List.getElem?_eq_some_iff.1 h).1
    simpa [cartridge] using this
  rw [cartridge_get hyper n u i hi] at h
  exact ⟨hi, (Option.some.inj h).symm⟩

theorem aloneScore_unique {C : Cls N σ} {kw : Kw N} {x : Frame N} {t : List (N × Val)} {s s' : Score} (h : aloneScore C kw x t s)
    (h' : aloneScore C kw x t s') : s = s' := by
  obtain ⟨k, hk⟩ := h
  obtain ⟨k', hk'⟩ := h'
  rw [hk] at hk'
  simp only [Except.ok.injEq, Prod.mk.injEq, Option.some.injEq] at hk'
  exact hk'.1

/-- **C330.** From the same state of the generator, a search with more trials never ends with worse parameters, as long as no trial raises or scores NaN: the first
trials are the same, and with equal scores so are the parameters. -/
theorem C330_more_trials (C : Cls N σ) (x : Frame N) (hyper : List (N × Lim)) (u : ℕ → ℕ → ℕ → ℚ) (n m : ℕ) (hnm : n ≤ m) (kw kwn kwm : Kw N) (on om : Obj N σ)
    (hn : tune C x (cartridge hyper n u) true kw = .ok (on, kwn)) (hm : tune C x (cartridge hyper m u) true kw = .ok (om, kwm))
    (hnan : ∀ t ∈ cartridge hyper m u, ¬ aloneScore C { kw with optimize := false } x t none) :
    ∃ tn tm qn qm, aloneScore C { kw with optimize := false } x tn (some qn) ∧ aloneScore C { kw with optimize := false } x tm (some qm) ∧
      kwn = ({ kw with optimize := false } : Kw N).update tn ∧ kwm = ({ kw with optimize := false } : Kw N).update tm ∧ qm ≤ qn ∧ (qm = qn → kwm = kwn) := by
  have hnan' : ∀ t ∈ cartridge hyper n u, ¬ aloneScore C { kw with optimize := false } x t none := by
    intro t ht
    obtain ⟨i, hi⟩ := List.mem_iff_getElem?.1 ht
    obtain ⟨h1, rfl⟩ := cartridge_lt hyper n u i t hi
    exact hnan _ (List.mem_iff_getElem?.2 ⟨i, cartridge_get hyper m u i (by omega)⟩)
  obtain ⟨b, tn, qn, hb, hsn, hkn, -, hmin⟩ := C152_best_trial C x _ kw kwn on hn hnan'
  obtain ⟨c, tm, qm, hc, hsm, hkm, -, hmin'⟩ := C152_best_trial C x _ kw kwm om hm hnan
  obtain ⟨hb1, rfl⟩ := cartridge_lt hyper n u b tn hb
  obtain ⟨hc1, rfl⟩ := cartridge_lt hyper m u c tm hc
  obtain ⟨v, hv, hqv, hlt⟩ := hmin' b _ (cartridge_get hyper m u b (by omega))
  have := aloneScore_unique hsn hv
  cases this
  refine ⟨_, _, qn, qm, hsn, hsm, hkn, hkm, hqv, fun he => ?_⟩
  have hcb : c ≤ b := by
    by_contra hcb
    have := hlt (by omega)
    rw [he] at this
    exact absurd this (lt_irrefl _)
  obtain ⟨w, hw, -, hlt'⟩ := hmin c _ (cartridge_get hyper n u c (by omega))
  have := aloneScore_unique hsm hw
  cases this
  have hbc : b ≤ c := by
    by_contra hbc
    have := hlt' (by omega)
    rw [he] at this
    exact absurd this (lt_irrefl _)
  have : b = c := by omega
  subst this
  rw [hkn, hkm]

end PyF.Tune
