import Verif.FfNet.Model
import Verif.LstmNet.Props
import Mathlib.Tactic.FieldSimp

/-! C286: range of the forecasts of feed-forward networks. C287: selector and skip connection. C288: a single layer. -/

namespace PyF.FfNet
open PyF PyF.LstmNet

/-! ### Lemmas -/

theorem var_nonneg (n : ℕ) (x : ℕ → ℝ) : 0 ≤ var n x :=
  div_nonneg (Finset.sum_nonneg fun _ _ => sq_nonneg _) (Nat.cast_nonneg _)

/-- A normalised entry is at most the root of the length. -/
theorem standard_le (n : ℕ) (x : ℕ → ℝ) (k : ℕ) (hk : k < n) :
    |(x k - mean n x) / Real.sqrt (var n x + 1 / 1000000)| ≤ Real.sqrt n := by
  have hn : (0 : ℝ) < n := by exact_mod_cast (by omega : 0 < n)
  have hv := var_nonneg n x
  have hp : 0 < var n x + 1 / 1000000 := by linarith
  have h1 : (x k - mean n x) ^ 2 ≤ n * var n x := by
    have e : (n : ℝ) * var n x = ∑ j ∈ Finset.range n, (x j - mean n x) ^ 2 := by
      unfold var; field_simp
    rw [e]
    exact Finset.single_le_sum (f := fun j => (x j - mean n x) ^ 2) (fun _ _ => sq_nonneg _) (Finset.mem_range.2 hk)
  rw [abs_div, abs_of_nonneg (Real.sqrt_nonneg _), div_le_iff₀ (Real.sqrt_pos.2 hp), ← Real.sqrt_mul hn.le]
  rw [← Real.sqrt_sq_eq_abs]
  exact Real.sqrt_le_sqrt (by nlinarith)

theorem norm_le (L : Norm) (n : ℕ) (x : ℕ → ℝ) (k : ℕ) (hk : k < n) : |L.apply n x k| ≤ Real.sqrt n * |L.g k| + |L.b k| := by
  unfold Norm.apply
  refine (abs_add_le _ _).trans ?_
  rw [abs_mul]
  have := mul_le_mul_of_nonneg_right (standard_le n x k hk) (abs_nonneg (L.g k))
  linarith

theorem dense_le (D : Dense) (m : ℕ) (x B : ℕ → ℝ) (hB : ∀ j < m, |x j| ≤ B j) (k : ℕ) :
    |dense D m x k - D.b k| ≤ ∑ j ∈ Finset.range m, |D.W k j| * B j := by
  unfold dense
  rw [add_sub_cancel_right]
  refine (Finset.abs_sum_le_sum_abs _ _).trans (Finset.sum_le_sum fun j hj => ?_)
  rw [abs_mul]
  exact mul_le_mul_of_nonneg_left (hB j (Finset.mem_range.1 hj)) (abs_nonneg _)

theorem dense_le' (D : Dense) (m : ℕ) (x B : ℕ → ℝ) (hB : ∀ j < m, |x j| ≤ B j) (k : ℕ) :
    |dense D m x k| ≤ (∑ j ∈ Finset.range m, |D.W k j| * B j) + |D.b k| := by
  have h1 := dense_le D m x B hB k
  have h2 := abs_add_le (dense D m x k - D.b k) (D.b k)
  rw [sub_add_cancel] at h2
  linarith

theorem relu_le (v : ℝ) : |relu v| ≤ |v| := by
  unfold relu
  rcases le_total 0 v with h | h
  · rw [max_eq_right h]
  · rw [max_eq_left h, abs_zero]; exact abs_nonneg v

/-- After at least one hidden layer the vector is an output of the last norm. -/
theorem hidden_last (P : Params) (ns : List ℕ) (hne : ns ≠ []) (i m : ℕ) (x : ℕ → ℝ) :
    (hidden P i m x ns).1 = ns.getLast hne ∧
      ∃ z : ℕ → ℝ, (hidden P i m x ns).2 = (P.norm (i + ns.length - 1)).apply (ns.getLast hne) z := by
  induction ns generalizing i m x with
  | nil => exact absurd rfl hne
  | cons n ns ih =>
    cases ns with
    | nil =>
      refine ⟨rfl, fun k => relu (dense (P.layer i) m x k), ?_⟩
      simp only [hidden, List.length_cons, List.length_nil, Nat.zero_add, Nat.add_sub_cancel, List.getLast_singleton]
    | cons n' ns =>
      have := ih (by simp) (i + 1) n ((P.norm i).apply n (fun k => relu (dense (P.layer i) m x k)))
      refine ⟨this.1, ?_⟩
      obtain ⟨z, hz⟩ := this.2
      refine ⟨z, ?_⟩
      have e : i + 1 + (n' :: ns).length - 1 = i + (n :: n' :: ns).length - 1 := by simp; omega
      rw [e] at hz
      exact hz

/-- Bound of entry `j` before the last layer: norm `i` with `n` entries. -/
noncomputable def bound (P : Params) (i n j : ℕ) : ℝ := Real.sqrt n * |(P.norm i).g j| + |(P.norm i).b j|

/-! ### C286 -/

/-- The sizes of the layers of a network with hidden layers: those before the last two, the last hidden one and the last one. -/
def Sized (c : Config) (pre : List ℕ) (n nLast : ℕ) : Prop := sizes c = .ok (pre ++ [n, nLast])

theorem forward_hidden (c : Config) (P : Params) (pre : List ℕ) (n nLast : ℕ) (hs : Sized c pre n nLast) (row : List ℝ) :
    ∃ z : ℕ → ℝ, forward c P row =
      (match shortcut c P row nLast with
       | none => .ok (lastLayer c P (pre.length + 1) n n nLast ((P.norm pre.length).apply n z))
       | some y => addVec (lastLayer c P (pre.length + 1) n n nLast ((P.norm pre.length).apply n z)) y) := by
  have hne : pre ++ [n] ≠ [] := by simp
  obtain ⟨h1, z, h2⟩ := hidden_last P (pre ++ [n]) hne 0 row.length (fun j => row.getD j 0)
  have e1 : (pre ++ [n, nLast]).dropLast = pre ++ [n] := by
    rw [show pre ++ [n, nLast] = (pre ++ [n]) ++ [nLast] by simp, List.dropLast_concat]
  have e2 : (pre ++ [n, nLast]).getLast? = some nLast := by
    rw [show pre ++ [n, nLast] = (pre ++ [n]) ++ [nLast] by simp, List.getLast?_concat]
  have e3 : (pre ++ [n]).getLastD nLast = n := by simp
  have e4 : (pre ++ [n, nLast]).length - 1 = pre.length + 1 := by simp
  have e5 : 0 + (pre ++ [n]).length - 1 = pre.length := by simp
  have e6 : (pre ++ [n]).getLast hne = n := by simp
  rw [e6] at h1
  rw [e5, e6] at h2
  refine ⟨z, ?_⟩
  unfold forward
  rw [hs]
  simp only [e1, e2, e3, e4, h1, h2]
  cases shortcut c P row nLast <;> rfl

theorem lastLayer_entry (c : Config) (P : Params) (i m w nLast : ℕ) (x : ℕ → ℝ) (k : ℕ) (v : ℝ)
    (hv : (lastLayer c P i m w nLast x)[k]? = some v) :
    (c.split = false ∧ v = dense (P.layer i) m x k) ∨
      (c.split = true ∧ v = dense (P.subOut k) w (fun j => relu (dense (P.subIn k) m x j)) 0) := by
  unfold lastLayer at hv
  cases hc : c.split with
  | false =>
    rw [hc] at hv
    simp only [Bool.false_eq_true, if_false, List.getElem?_map] at hv
    left
    refine ⟨rfl, ?_⟩
    by_cases hk : k < nLast
    · rw [List.getElem?_range hk] at hv
      exact (Option.some.inj hv).symm
    · rw [List.getElem?_eq_none (by simpa using hk)] at hv
      cases hv
  | true =>
    rw [hc] at hv
    simp only [if_true, List.getElem?_map] at hv
    right
    refine ⟨rfl, ?_⟩
    by_cases hk : k < c.nOut.getD nLast
    · rw [List.getElem?_range hk] at hv
      exact (Option.some.inj hv).symm
    · rw [List.getElem?_eq_none (by simpa using hk)] at hv
      cases hv

/-- The last layer stays in a band that does not depend on its input when that input is normalised. -/
theorem lastLayer_bounded (c : Config) (P : Params) (i n nLast p : ℕ) (k : ℕ) :
    ∃ M : ℝ, ∀ (z : ℕ → ℝ) (v : ℝ), (lastLayer c P i n n nLast ((P.norm p).apply n z))[k]? = some v → |v| ≤ M := by
  refine ⟨max ((∑ j ∈ Finset.range n, |(P.layer i).W k j| * bound P p n j) + |(P.layer i).b k|)
    ((∑ j ∈ Finset.range n, |(P.subOut k).W 0 j| * ((∑ l ∈ Finset.range n, |(P.subIn k).W j l| * bound P p n l) + |(P.subIn k).b j|))
      + |(P.subOut k).b 0|), ?_⟩
  intro z v hv
  have hb : ∀ j < n, |(P.norm p).apply n z j| ≤ bound P p n j := fun j hj => norm_le _ _ _ _ hj
  rcases lastLayer_entry _ _ _ _ _ _ _ _ _ hv with ⟨-, rfl⟩ | ⟨-, rfl⟩
  · exact (dense_le' _ _ _ _ hb k).trans (le_max_left _ _)
  · refine (dense_le' _ _ _ _ (fun j _ => ?_) 0).trans (le_max_right _ _)
    exact (relu_le _).trans (dense_le' _ _ _ _ hb j)

/-- C286 (band): a feed-forward network with a hidden layer, without heads, selector and skip connection. Whatever the features, output `k`
differs from its bias by at most a sum that depends only on the parameters of the last two layers. -/
theorem C286_band (c : Config) (P : Params) (pre : List ℕ) (n nLast : ℕ) (hs : Sized c pre n nLast) (hsplit : c.split = false)
    (hsel : c.selector = none) (hskip : c.skip = false) (row : List ℝ) :
    ∃ y, forward c P row = .ok y ∧ y.length = nLast ∧ ∀ (k : ℕ) (v : ℝ), y[k]? = some v →
      |v - (P.layer (pre.length + 1)).b k| ≤ ∑ j ∈ Finset.range n,
        |(P.layer (pre.length + 1)).W k j| * (Real.sqrt n * |(P.norm pre.length).g j| + |(P.norm pre.length).b j|) := by
  obtain ⟨z, hz⟩ := forward_hidden c P pre n nLast hs row
  have e : shortcut c P row nLast = none := by simp [shortcut, hsel, hskip]
  rw [e] at hz
  refine ⟨_, hz, by simp [lastLayer, hsplit], ?_⟩
  intro k v hv
  rcases lastLayer_entry _ _ _ _ _ _ _ _ _ hv with ⟨-, rfl⟩ | ⟨h, -⟩
  · exact dense_le _ _ _ _ (fun j hj => norm_le _ _ _ _ hj) k
  · rw [hsplit] at h; cases h

/-- C286 (no growth): with hidden layers and neither selector nor skip connection, with or without separate heads, there is a level
that no forecast exceeds, whatever the features. -/
theorem C286_no_growth (c : Config) (P : Params) (pre : List ℕ) (n nLast : ℕ) (hs : Sized c pre n nLast)
    (hsel : c.selector = none) (hskip : c.skip = false) (k : ℕ) :
    ∃ M : ℝ, ∀ (row y : List ℝ) (v : ℝ), forward c P row = .ok y → y[k]? = some v → |v| ≤ M := by
  obtain ⟨M, hM⟩ := lastLayer_bounded c P (pre.length + 1) n nLast pre.length k
  refine ⟨M, fun row y v hy hv => ?_⟩
  obtain ⟨z, hz⟩ := forward_hidden c P pre n nLast hs row
  have e : shortcut c P row nLast = none := by simp [shortcut, hsel, hskip]
  rw [e, hy] at hz
  obtain rfl := Except.ok.inj hz
  exact hM z v hv

/-! ### C287 -/

theorem addVec_get (a b y : List ℝ) (h : addVec a b = .ok y) (hl : a.length = b.length) (k : ℕ) (v : ℝ) (hv : y[k]? = some v) :
    ∃ p q, a[k]? = some p ∧ b[k]? = some q ∧ v = p + q := by
  unfold addVec at h
  rw [if_pos hl] at h
  obtain rfl := Except.ok.inj h
  rw [List.getElem?_zipWith] at hv
  cases ha : a[k]? with
  | none => rw [ha] at hv; cases hb : b[k]? <;> rw [hb] at hv <;> cases hv
  | some p =>
    cases hb : b[k]? with
    | none => rw [ha, hb] at hv; cases hv
    | some q =>
      rw [ha, hb] at hv
      exact ⟨p, q, rfl, rfl, (Option.some.inj hv).symm⟩

/-- Number of outputs of the last layer. -/
def width (c : Config) (nLast : ℕ) : ℕ := if c.split then c.nOut.getD nLast else nLast

theorem lastLayer_length (c : Config) (P : Params) (i m w nLast : ℕ) (x : ℕ → ℝ) : (lastLayer c P i m w nLast x).length = width c nLast := by
  unfold lastLayer width
  split <;> simp

/-- C287 (selector): with a selector of as many features as there are outputs the network forecasts the selected features plus a bounded
correction: forecast `k` is never further than a fixed distance from feature `s k`, and follows it without bound. -/
theorem C287_selector (c : Config) (P : Params) (pre : List ℕ) (n nLast : ℕ) (hs : Sized c pre n nLast) (s : List ℕ)
    (hsel : c.selector = some s) (hl : s.length = width c nLast) (k i : ℕ) (hk : s[k]? = some i) :
    ∃ M : ℝ, ∀ row : List ℝ, ∃ y v, forward c P row = .ok y ∧ y.length = s.length ∧ y[k]? = some v ∧ |v - row.getD i 0| ≤ M := by
  obtain ⟨M, hM⟩ := lastLayer_bounded c P (pre.length + 1) n nLast pre.length k
  refine ⟨M, fun row => ?_⟩
  obtain ⟨z, hz⟩ := forward_hidden c P pre n nLast hs row
  have e : shortcut c P row nLast = some (s.map (fun k => row.getD k 0)) := by simp [shortcut, hsel]
  rw [e] at hz
  simp only at hz
  set out := lastLayer c P (pre.length + 1) n n nLast ((P.norm pre.length).apply n z) with hout
  have hol : out.length = width c nLast := lastLayer_length _ _ _ _ _ _ _
  have hlen : out.length = (s.map (fun k => row.getD k 0)).length := by rw [hol, List.length_map, hl]
  have hk' : k < s.length := by
    by_contra hc
    rw [List.getElem?_eq_none (by omega)] at hk
    cases hk
  have hadd : addVec out (s.map (fun k => row.getD k 0)) = .ok (List.zipWith (· + ·) out (s.map (fun k => row.getD k 0))) := by
    unfold addVec
    rw [if_pos hlen]
  have hko : k < out.length := by rw [hol, ← hl]; exact hk'
  refine ⟨_, out[k] + row.getD i 0, hz.trans hadd, ?_, ?_, ?_⟩
  · rw [List.length_zipWith, hlen]; simp
  · rw [List.getElem?_zipWith, List.getElem?_eq_getElem hko, List.getElem?_map, hk]
    rfl
  · rw [add_sub_cancel_right]
    exact hM z _ (List.getElem?_eq_getElem hko)

/-- C287 (skip connection): with a skip connection (no selector, no heads) forecast `k` is never further than a fixed distance from an affine function
of the features. -/
theorem C287_skip (c : Config) (P : Params) (pre : List ℕ) (n nLast : ℕ) (hs : Sized c pre n nLast) (hsplit : c.split = false)
    (hsel : c.selector = none) (hskip : c.skip = true) (k : ℕ) (hk : k < nLast) :
    ∃ M : ℝ, ∀ row : List ℝ, ∃ y v, forward c P row = .ok y ∧ y.length = nLast ∧ y[k]? = some v ∧
      |v - (P.skip.b k + ∑ j ∈ Finset.range row.length, P.skip.W k j * row.getD j 0)| ≤ M := by
  obtain ⟨M, hM⟩ := lastLayer_bounded c P (pre.length + 1) n nLast pre.length k
  refine ⟨M, fun row => ?_⟩
  obtain ⟨z, hz⟩ := forward_hidden c P pre n nLast hs row
  have e : shortcut c P row nLast = some ((List.range nLast).map (fun k => dense P.skip row.length (fun j => row.getD j 0) k)) := by
    simp [shortcut, hsel, hskip]
  rw [e] at hz
  simp only at hz
  set out := lastLayer c P (pre.length + 1) n n nLast ((P.norm pre.length).apply n z) with hout
  have hol : out.length = nLast := by rw [hout, lastLayer_length, width, hsplit]; rfl
  have hadd : addVec out ((List.range nLast).map (fun k => dense P.skip row.length (fun j => row.getD j 0) k))
      = .ok (List.zipWith (· + ·) out ((List.range nLast).map (fun k => dense P.skip row.length (fun j => row.getD j 0) k))) := by
    unfold addVec
    rw [if_pos (by simp [hol])]
  have hko : k < out.length := by rw [hol]; exact hk
  refine ⟨_, out[k] + dense P.skip row.length (fun j => row.getD j 0) k, hz.trans hadd, ?_, ?_, ?_⟩
  · rw [List.length_zipWith, hol]; simp
  · rw [List.getElem?_zipWith, List.getElem?_eq_getElem hko, List.getElem?_map, List.getElem?_range hk]
    rfl
  · have e2 : out[k] + dense P.skip row.length (fun j => row.getD j 0) k
        - (P.skip.b k + ∑ j ∈ Finset.range row.length, P.skip.W k j * row.getD j 0) = out[k] := by
      unfold dense
      ring
    rw [e2]
    exact hM z _ (List.getElem?_eq_getElem hko)

/-! ### C288 -/

/-- C288: a network with a single layer and neither heads nor shortcuts is an affine map: its forecasts are those of a linear
model, and grow with the features. -/
theorem C288_single_layer (c : Config) (P : Params) (nLast : ℕ) (hs : sizes c = .ok [nLast]) (hsplit : c.split = false)
    (hsel : c.selector = none) (hskip : c.skip = false) (row : List ℝ) :
    forward c P row = .ok ((List.range nLast).map (fun k =>
      (∑ j ∈ Finset.range row.length, (P.layer 0).W k j * row.getD j 0) + (P.layer 0).b k)) := by
  unfold forward
  rw [hs]
  simp [shortcut, hsel, hskip, lastLayer, hsplit, hidden, dense]

/-- C288 (numbers of layers): a number of layers is turned into sizes: `l - 1` layers of `n_neurons` and one of `n_out`; zero layers and a missing
`n_out` raise. -/
theorem C288_sizes (c : Config) : (∀ l n, c.layers = .num (l + 1) → c.nOut = some n →
      ∃ s, sizes c = .ok s ∧ s.length = l + 1 ∧ s.getLast? = some n ∧ ∀ i < l, s[i]? = some c.nNeurons) ∧
    (c.layers = .num 0 → ∀ P row, forward c P row = .error .indexError) ∧
    (∀ l, c.layers = .num (l + 1) → c.nOut = none → ∀ P row, forward c P row = .error .typeError) := by
  refine ⟨?_, ?_, ?_⟩
  · intro l n h1 h2
    refine ⟨List.replicate l c.nNeurons ++ [n], by simp [sizes, h1, h2], by simp, by simp, ?_⟩
    intro i hi
    rw [List.getElem?_append_left (by simpa using hi)]
    simp [hi]
  · intro h P row
    simp [forward, sizes, h]
  · intro l h1 h2 P row
    simp [forward, sizes, h1, h2]

end PyF.FfNet
