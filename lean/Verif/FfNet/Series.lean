import Verif.FfNet.Props

/-! C288: the layers of a feed-forward network act one after the other. -/

namespace PyF.FfNet
open PyF PyF.LstmNet

theorem forward_congr (c : Config) (P : Params) (hsel : c.selector = none) (hskip : c.skip = false) (ls : List ℕ) (hne : ls ≠ [])
    (hs : sizes c = .ok ls) (r r' : List ℝ)
    (h : hidden P 0 r.length (fun j => r.getD j 0) ls.dropLast = hidden P 0 r'.length (fun j => r'.getD j 0) ls.dropLast) :
    forward c P r = forward c P r' := by
  unfold forward
  rw [hs]
  simp only [List.getLast?_eq_getLast_of_ne_nil hne, shortcut, hsel, hskip, Bool.false_eq_true, if_false]
  rw [h]

theorem hidden_blind (P : Params) (ns : List ℕ) (i q m m' : ℕ) (hq : q < ns.length) (hb : ∀ k j, (P.layer (i + q)).W k j = 0) (x x' : ℕ → ℝ) :
    hidden P i m x ns = hidden P i m' x' ns := by
  induction ns generalizing i q m m' x x' with
  | nil => cases hq
  | cons n ns ih =>
    cases q with
    | zero =>
      have e : (fun k => relu (dense (P.layer i) m x k)) = fun k => relu (dense (P.layer i) m' x' k) := by
        funext k
        rw [Nat.add_zero] at hb
        simp [dense, hb]
      simp only [hidden, e]
    | succ q =>
      simp only [hidden]
      exact ih (i + 1) q n n (by simpa using hq) (by rwa [Nat.add_assoc, Nat.add_comm 1 q]) _ _

/-- C288 (series): the features reach the forecast only through all layers one after the other: if one of the hidden layers has
no weights, all rows get the same forecast. -/
theorem C288_series (c : Config) (P : Params) (hsel : c.selector = none) (hskip : c.skip = false) (ls : List ℕ)
    (hs : sizes c = .ok ls) (q : ℕ) (hq : q + 1 < ls.length) (hb : ∀ k j, (P.layer q).W k j = 0) (r r' : List ℝ) :
    forward c P r = forward c P r' := by
  have hne : ls ≠ [] := by rintro rfl; simp at hq
  exact forward_congr c P hsel hskip ls hne hs r r'
    (hidden_blind P ls.dropLast 0 q _ _ (by rw [List.length_dropLast]; omega) (by rwa [Nat.zero_add]) _ _)

/-- C288 (dead units): if all weights and biases of the first hidden layer are at most zero, all rows of non-negative features get the same
forecast. -/
theorem C288_dead_units (c : Config) (P : Params) (hsel : c.selector = none) (hskip : c.skip = false) (ls : List ℕ)
    (hs : sizes c = .ok ls) (h2 : 2 ≤ ls.length) (hw : ∀ k j, (P.layer 0).W k j ≤ 0) (hb : ∀ k, (P.layer 0).b k ≤ 0) (r r' : List ℝ)
    (hr : ∀ v ∈ r, 0 ≤ v) (hr' : ∀ v ∈ r', 0 ≤ v) : forward c P r = forward c P r' := by
  have hne : ls ≠ [] := by rintro rfl; simp at h2
  have key : ∀ r : List ℝ, (∀ v ∈ r, 0 ≤ v) → (fun k => relu (dense (P.layer 0) r.length (fun j => r.getD j 0) k)) = fun _ => 0 := by
    intro r hr
    funext k
    have hg : ∀ j, 0 ≤ r.getD j 0 := by
      intro j
      rw [List.getD_eq_getElem?_getD]
      cases h : r[j]? with
      | none => simp
      | some v => exact hr v (List.mem_of_getElem? h)
    have : dense (P.layer 0) r.length (fun j => r.getD j 0) k ≤ 0 := by
      unfold dense
      have := Finset.sum_nonpos (s := Finset.range r.length) (fun j _ => mul_nonpos_of_nonpos_of_nonneg (hw k j) (hg j))
      linarith [hb k]
    exact max_eq_left this
  refine forward_congr c P hsel hskip ls hne hs r r' ?_
  match ls, h2 with
  | n :: n' :: ns, _ =>
    simp only [List.dropLast_cons_cons, hidden]
    rw [key r hr, key r' hr']

/-- Equal numbers are normalised to zero, whatever they are. -/
theorem norm_const (L : Norm) (n : ℕ) (hn : 0 < n) (v : ℝ) (k : ℕ) : L.apply n (fun _ => v) k = L.b k := by
  have hm : mean n (fun _ => v) = v := by
    unfold mean
    rw [Finset.sum_const, Finset.card_range, nsmul_eq_mul]
    have : (n : ℝ) ≠ 0 := by exact_mod_cast hn.ne'
    field_simp
  unfold Norm.apply
  rw [hm, sub_self, zero_div, zero_mul, zero_add]

theorem hidden_equal (P : Params) (ns : List ℕ) (i q m m' : ℕ) (hq : q < ns.length) (hpos : ∀ n ∈ ns, 0 < n) (hw : ∀ k k' j, (P.layer (i + q)).W k j = (P.layer (i + q)).W k' j)
    (hb : ∀ k k', (P.layer (i + q)).b k = (P.layer (i + q)).b k') (x x' : ℕ → ℝ) : hidden P i m x ns = hidden P i m' x' ns := by
  induction ns generalizing i q m m' x x' with
  | nil => cases hq
  | cons n ns ih =>
    cases q with
    | zero =>
      rw [Nat.add_zero] at hw hb
      have e : ∀ m x, (fun k => relu (dense (P.layer i) m x k)) = fun _ => relu (dense (P.layer i) m x 0) := by
        intro m x
        funext k
        unfold dense
        rw [hb k 0]
        simp only [fun j => hw k 0 j]
      have e2 : ∀ m x, (P.norm i).apply n (fun k => relu (dense (P.layer i) m x k)) = (P.norm i).b := by
        intro m x
        rw [e]
        funext k
        exact norm_const _ n (hpos n (by simp)) _ k
      simp only [hidden, e2]
    | succ q =>
      simp only [hidden]
      have hq' : i + 1 + q = i + (q + 1) := by omega
      exact ih (i + 1) q n n (by simpa using hq) (fun n' h => hpos n' (by simp [h])) (by rwa [hq']) (by rwa [hq']) _ _

/-- C288 (equal units): if the units of one of the hidden layers have the same weights and bias, as after a constant initialisation, all rows get the same
forecast: the normalisation removes what the units have in common. -/
theorem C288_equal_units (c : Config) (P : Params) (hsel : c.selector = none) (hskip : c.skip = false) (ls : List ℕ)
    (hs : sizes c = .ok ls) (hpos : ∀ n ∈ ls, 0 < n) (q : ℕ) (hq : q + 1 < ls.length) (hw : ∀ k k' j, (P.layer q).W k j = (P.layer q).W k' j)
    (hb : ∀ k k', (P.layer q).b k = (P.layer q).b k') (r r' : List ℝ) :
    forward c P r = forward c P r' := by
  have hne : ls ≠ [] := by rintro rfl; simp at hq
  exact forward_congr c P hsel hskip ls hne hs r r'
    (hidden_equal P ls.dropLast 0 q _ _ (by rw [List.length_dropLast]; omega) (fun n h => hpos n (List.mem_of_mem_dropLast h)) (by rwa [Nat.zero_add]) (by rwa [Nat.zero_add]) _ _)

end PyF.FfNet
