import Verif.Qrf.Spec
import Verif.Boot.Props
import Mathlib.Data.List.GetD
import Mathlib.Tactic.Linarith

namespace PyF.Qrf

open PyF

variable {R P D : Type} [Inhabited R]

/-- Number of levels asked of a forest. -/
def wd : FQ → ℕ
  | .mean => 1
  | .levels l => l.length
  | .chars => 0

/-- The value of output `j`, level number `k`. -/
def vals (F : Forest R) : FQ → R → ℕ → ℕ → ℚ
  | .mean, r, j, _ => F.mean r j
  | .levels l, r, j, k => F.quant r j (l.getD k 0)
  | .chars, _, _, _ => 0

theorem predict_eq (F : Forest R) (x : List R) (q : FQ) (hq : 1 ≤ wd q) :
    F.predict x q = .ok (squeeze x.length F.outs (wd q) (fun i j k => vals F q (x.getD i default) j k)) := by
  cases q with
  | mean => rfl
  | levels l => rfl
  | chars => simp [wd] at hq

/-- Entry of a single-step prediction. -/
def sEntry (F : Forest R) (x : List R) (q : FQ) (i k : ℕ) : ℚ := vals F q (x.getD i default) 0 (if wd q = 1 then 0 else k)

theorem sEntry_eq (F : Forest R) (x : List R) (q : FQ) (i k : ℕ) (hk : k < wd q) : sEntry F x q i k = vals F q (x.getD i default) 0 k := by
  unfold sEntry
  split_ifs with h
  · have : k = 0 := by omega
    rw [this]
  · rfl

theorem predSingle_eq (F : Forest R) (x : List R) (q : FQ) (hq : 1 ≤ wd q) (hF : F.outs = 1) :
    predSingle F x q = .ok (.d2 x.length (wd q) (sEntry F x q)) := by
  unfold predSingle
  rw [predict_eq F x q hq]
  simp only [squeeze, hF, if_true]
  by_cases h : wd q = 1
  · simp only [h, if_true, expand1]
    congr 2
    funext i k
    simp [sEntry, h]
  · simp only [h, if_false, expand1]
    congr 2
    funext i k
    simp [sEntry, h]

theorem predMulti_eq (F : Forest R) (x : List R) (q : FQ) (hq : 1 ≤ wd q) (h : F.outs = 1 → wd q = 1) :
    ∃ g, predMulti F x q = .ok (.d3 x.length (wd q) F.outs g) ∧ ∀ i k j, k < wd q → j < F.outs → g i k j = vals F q (x.getD i default) j k := by
  unfold predMulti
  rw [predict_eq F x q hq]
  simp only [squeeze]
  by_cases h1 : wd q = 1
  · by_cases hF : F.outs = 1
    · refine ⟨_, by simp only [h1, hF, if_true, expand1, expandOrSwap]; rfl, ?_⟩
      intro i k j hk hj
      have : k = 0 := by omega
      have : j = 0 := by omega
      subst k j; rfl
    · refine ⟨_, by simp only [h1, hF, if_true, if_false, expand1, expandOrSwap]; rfl, ?_⟩
      intro i k j hk hj
      have : k = 0 := by omega
      subst k; rfl
  · have hF : F.outs ≠ 1 := fun e => h1 (h e)
    exact ⟨_, by simp only [h1, hF, if_false, expand1, expandOrSwap], fun i k j _ _ => rfl⟩

theorem predMulti_one (F : Forest R) (x : List R) (q : FQ) (hq : 1 < wd q) (h : F.outs = 1) :
    predMulti F x q = .ok (.d3 x.length 1 (wd q) (fun i _ k => vals F q (x.getD i default) 0 k)) := by
  unfold predMulti
  rw [predict_eq F x q (by omega)]
  have h1 : wd q ≠ 1 := by omega
  simp only [squeeze, h, h1, if_true, if_false, expand1, expandOrSwap]

theorem catF_singles (n a : ℕ) (fs : ℕ → ℕ → ℕ → ℚ) (s m : ℕ) (L : List A3) (i j c : ℕ) :
    catF (((List.range' m s).map (fun t => (⟨n, a, 1, fun i j _ => fs t i j⟩ : A3))) ++ L) i j c =
      if c < s then fs (m + c) i j else catF L i j (c - s) := by
  induction s generalizing m c with
  | zero => simp
  | succ s ih =>
    rw [List.range'_succ, List.map_cons, List.cons_append]
    simp only [catF]
    by_cases h : c < 1
    · have : c = 0 := by omega
      subst this; simp
    · rw [if_neg h, ih]
      by_cases h2 : c < s + 1
      · rw [if_pos (by omega), if_pos h2]
        congr 1; omega
      · rw [if_neg (by omega), if_neg h2]
        congr 1; omega

/-- The stacked single-step predictions followed by the global one. -/
theorem dstack_eq (n a s : ℕ) (fs : ℕ → ℕ → ℕ → ℚ) (L : List Arr) (hL : L = [] ∧ 1 ≤ s ∨ ∃ b g, L = [.d3 n a b g]) :
    dstack ((List.range s).map (fun t => Arr.d2 n a (fs t)) ++ L) =
      .ok ⟨n, a, s + ((L.map toA3).map A3.b).sum, catF ((List.range s).map (fun t => (⟨n, a, 1, fun i j _ => fs t i j⟩ : A3)) ++ L.map toA3)⟩ := by
  unfold dstack
  have e : ((List.range s).map (fun t => Arr.d2 n a (fs t)) ++ L).map toA3 =
      (List.range s).map (fun t => (⟨n, a, 1, fun i j _ => fs t i j⟩ : A3)) ++ L.map toA3 := by
    rw [List.map_append, List.map_map]; rfl
  have hall : ∀ B ∈ (List.range s).map (fun t => (⟨n, a, 1, fun i j _ => fs t i j⟩ : A3)) ++ L.map toA3, B.n = n ∧ B.a = a := by
    intro B hB
    rcases List.mem_append.1 hB with h | h
    · obtain ⟨t, -, rfl⟩ := List.mem_map.1 h
      exact ⟨rfl, rfl⟩
    · rcases hL with ⟨rfl, -⟩ | ⟨b, g, rfl⟩
      · simp at h
      · simp [toA3] at h
        subst h; exact ⟨rfl, rfl⟩
  have hsum : (((List.range s).map (fun t => (⟨n, a, 1, fun i j _ => fs t i j⟩ : A3)) ++ L.map toA3).map A3.b).sum = s + ((L.map toA3).map A3.b).sum := by
    rw [List.map_append, List.sum_append, List.map_map]
    congr 1
    have : (A3.b ∘ fun t => (⟨n, a, 1, fun i j _ => fs t i j⟩ : A3)) = fun _ : ℕ => 1 := rfl
    rw [this]; simp
  have hne : (List.range s).map (fun t => (⟨n, a, 1, fun i j _ => fs t i j⟩ : A3)) ++ L.map toA3 ≠ [] := by
    rcases hL with ⟨rfl, h⟩ | ⟨b, g, rfl⟩
    · simp; omega
    · simp
  rw [e]
  revert hall hsum hne
  generalize (List.range s).map (fun t => (⟨n, a, 1, fun i j _ => fs t i j⟩ : A3)) ++ L.map toA3 = M
  intro hall hsum hne
  match M, hne with
  | A :: As, _ =>
    have hA := hall A (by simp)
    have : As.all (fun B => B.n == A.n && B.a == A.a) = true := by
      rw [List.all_eq_true]
      intro B hB
      have := hall B (by simp [hB])
      simp [this.1, this.2, hA.1, hA.2]
    simp only
    rw [if_pos this, hsum, hA.1, hA.2]

/-- The single-step forests and the global one of a fitted object. -/
structure Fitted (c : Cfg) (s : State R) (t : ℕ) (ms : ℕ → Forest R) (g : Forest R) : Prop where
  models : ∀ i, i < c.nSingle → s.models[i]? = some (ms i)
  outs : ∀ i, i < c.nSingle → (ms i).outs = 1
  nMulti : s.nMulti = t - c.nSingle
  nTargets : s.nTargets = t
  multi : 0 < t - c.nSingle → s.multi = some g ∧ g.outs = t - c.nSingle
  le : c.nSingle ≤ t

theorem singles_eq (E : Env R P D) (c : Cfg) (s : State R) (t : ℕ) (ms : ℕ → Forest R) (g : Forest R) (h : Fitted c s t ms g) (x : List R)
    (kw : Kw P) (hp : kw.period = none) (hq : 1 ≤ wd (forestArg kw.quantiles)) :
    singles E c s x kw = .ok ((List.range c.nSingle).map (fun i => .d2 x.length (wd (forestArg kw.quantiles))
      (sEntry (ms i) (x.map (E.prune i E.period0)) (forestArg kw.quantiles)))) := by
  unfold singles
  rw [hp]
  apply Boot.mapM_all_ok
  intro i hi
  rw [List.mem_range] at hi
  unfold stepPredict
  rw [h.models i hi]
  simp only
  rw [predSingle_eq _ _ _ hq (h.outs i hi), List.length_map]

/-- The value for target `j`, level number `k`, at row `i`. -/
def want (E : Env R P D) (c : Cfg) (ms : ℕ → Forest R) (g : Forest R) (q : FQ) (r : R) (j k : ℕ) : ℚ :=
  if j < c.nSingle then vals (ms j) q (E.prune j E.period0 r) 0 k else vals g q r (j - c.nSingle) k

theorem getD_map (f : R → R) (x : List R) (i : ℕ) (hi : i < x.length) : (x.map f).getD i default = f (x.getD i default) := by
  rw [List.getD_eq_getElem _ _ (by simpa using hi), List.getD_eq_getElem _ _ hi]; simp

/-- The array after `dstack`, unless the axes are confused. -/
theorem stacked (E : Env R P D) (c : Cfg) (s : State R) (t : ℕ) (ms : ℕ → Forest R) (g : Forest R) (h : Fitted c s t ms g) (x : List R)
    (kw : Kw P) (hp : kw.period = none) (ht : 1 ≤ t) (hq : 1 ≤ wd (forestArg kw.quantiles))
    (hok : t - c.nSingle = 1 → wd (forestArg kw.quantiles) = 1) :
    ∃ A : A3, A.n = x.length ∧ A.a = wd (forestArg kw.quantiles) ∧ A.b = t ∧ predict E c s x kw = mkFrame s x.length kw A ∧
      ∀ i k j, i < x.length → k < wd (forestArg kw.quantiles) → j < t → A.f i k j = want E c ms g (forestArg kw.quantiles) (x.getD i default) j k := by
  have hs := singles_eq E c s t ms g h x kw hp hq
  unfold predict
  rw [hs]
  simp only
  by_cases hm : 0 < t - c.nSingle
  · obtain ⟨hg1, hg2⟩ := h.multi hm
    obtain ⟨G, hG1, hG2⟩ := predMulti_eq g x (forestArg kw.quantiles) hq (by rw [hg2]; exact hok)
    have hmu : multis s x kw = .ok [.d3 x.length (wd (forestArg kw.quantiles)) g.outs G] := by
      unfold multis
      rw [h.nMulti, if_pos hm, hg1]
      simp only [hG1]; rfl
    rw [hmu]
    simp only
    rw [dstack_eq _ _ _ (fun i => sEntry (ms i) (x.map (E.prune i E.period0)) (forestArg kw.quantiles)) _ (Or.inr ⟨_, _, rfl⟩)]
    refine ⟨_, rfl, rfl, ?_, rfl, ?_⟩
    · simp [toA3, hg2]; have := h.le; omega
    · intro i k j hi hk hj
      simp only
      rw [List.range_eq_range', catF_singles]
      unfold want
      split_ifs with hjs
      · rw [Nat.zero_add, sEntry_eq _ _ _ _ _ hk, getD_map _ _ _ hi]
      · have hb : j - c.nSingle < g.outs := by rw [hg2]; omega
        simp only [List.map_cons, toA3, catF, hb, if_true]
        exact hG2 i k _ hk hb
  · have hmu : multis s x kw = .ok [] := by
      unfold multis
      rw [h.nMulti, if_neg hm]
    rw [hmu]
    simp only
    have h1 : c.nSingle = t := by have := h.le; omega
    rw [dstack_eq _ _ _ (fun i => sEntry (ms i) (x.map (E.prune i E.period0)) (forestArg kw.quantiles)) _ (Or.inl ⟨rfl, by omega⟩)]
    refine ⟨_, rfl, rfl, ?_, rfl, ?_⟩
    · simp [h1]
    · intro i k j hi hk hj
      simp only
      rw [List.range_eq_range', catF_singles]
      unfold want
      rw [if_pos (by omega), if_pos (by omega), Nat.zero_add, sEntry_eq _ _ _ _ _ hk, getD_map _ _ _ hi]

end PyF.Qrf
