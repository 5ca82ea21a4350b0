import Verif.Hankel.Model
import Mathlib.Data.List.Forall2

namespace PyF.Hankel

variable {α : Type}

/-- Entry in row `i`, column `j` of an array kept by columns. -/
def entry (T : List (List α)) (i j : Nat) : Option α := (T[j]?).bind (fun c => c[i]?)

theorem mapM_ok_iff {β γ : Type} (f : β → Except PyErr γ) (l : List β) (r : List γ) :
    l.mapM f = .ok r ↔ List.Forall₂ (fun b c => f b = .ok c) l r := by
  induction l generalizing r with
  | nil =>
    rw [List.mapM_nil]
    constructor
    · intro h; cases h; exact .nil
    · intro h; cases h; rfl
  | cons b l ih =>
    rw [List.mapM_cons]
    constructor
    · intro h
      cases h1 : f b with
      | error e => rw [h1] at h; cases h
      | ok c =>
        rw [h1] at h
        cases h2 : l.mapM f with
        | error e => rw [h2] at h; cases h
        | ok r' =>
          rw [h2] at h
          cases h
          exact .cons h1 ((ih r').1 h2)
    · intro h
      cases h with
      | cons h1 h2 => rw [h1, (ih _).2 h2]; rfl

/-- The sample a generator `g` refers to in row `i`: `x[i+g]`, counted from the end if `i + g` is negative. -/
def Refers (x : List α) (k : Int) (v : α) : Prop :=
  (0 ≤ k ∧ x[k.toNat]? = some v) ∨ (k < 0 ∧ 0 ≤ k + x.length ∧ x[(k + x.length).toNat]? = some v)

theorem pyGet_ok (x : List α) (k : Int) (v : α) : pyGet x k = .ok v ↔ Refers x k v := by
  unfold pyGet Refers
  by_cases h : 0 ≤ k
  · simp only [h, if_true, true_and, show ¬ k < 0 by omega, false_and, or_false]
    cases x[k.toNat]? <;> simp
  · simp only [h, if_false, false_and, false_or, show k < 0 by omega, true_and]
    by_cases h2 : -(x.length : Int) ≤ k
    · simp only [h2, if_true, show 0 ≤ k + x.length by omega, true_and]
      cases x[(k + x.length).toNat]? <;> simp
    · simp [h2, show ¬ 0 ≤ k + (x.length : Int) by omega]

theorem pyGet_exists (x : List α) (k : Int) : (∃ v, pyGet x k = .ok v) ↔ -(x.length : Int) ≤ k ∧ k < x.length := by
  simp only [pyGet_ok, Refers]
  constructor
  · rintro ⟨v, ⟨h1, h2⟩ | ⟨h1, h2, h3⟩⟩
    · have := (List.getElem?_eq_some_iff.1 h2).1; omega
    · omega
  · rintro ⟨h1, h2⟩
    by_cases h : 0 ≤ k
    · exact ⟨x[k.toNat]'(by omega), Or.inl ⟨h, List.getElem?_eq_getElem _⟩⟩
    · exact ⟨x[(k + x.length).toNat]'(by omega), Or.inr ⟨by omega, by omega, List.getElem?_eq_getElem _⟩⟩

theorem column_ok (x : List α) (m : Nat) (g : Int) (c : List α) :
    column x m g = .ok c ↔ c.length = m ∧ ∀ (i : Nat) (v : α), c[i]? = some v → Refers x (i + g) v := by
  unfold column
  rw [mapM_ok_iff]
  constructor
  · intro h
    refine ⟨by simpa using h.length_eq.symm, ?_⟩
    intro i v hv
    obtain ⟨hi, hv⟩ := List.getElem?_eq_some_iff.1 hv
    have hl := h.length_eq
    have := (List.forall₂_iff_get.1 h).2 i (by omega) hi
    simp only [List.get_eq_getElem, List.getElem_range] at this
    rw [hv] at this
    exact (pyGet_ok _ _ _).1 this
  · rintro ⟨hl, h⟩
    refine List.forall₂_iff_get.2 ⟨by simp [hl], ?_⟩
    intro i h1 h2
    simp only [List.get_eq_getElem, List.getElem_range]
    exact (pyGet_ok _ _ _).2 (h i _ (List.getElem?_eq_getElem h2))

theorem column_exists (x : List α) (m : Nat) (g : Int) :
    (∃ c, column x m g = .ok c) ↔ ∀ i : Nat, i < m → -(x.length : Int) ≤ i + g ∧ (i : Int) + g < x.length := by
  constructor
  · rintro ⟨c, hc⟩ i hi
    obtain ⟨hl, h⟩ := (column_ok x m g c).1 hc
    have := h i _ (List.getElem?_eq_getElem (by omega))
    exact (pyGet_exists x _).1 ⟨_, (pyGet_ok _ _ _).2 this⟩
  · intro h
    have : ∀ i : Fin m, ∃ v, pyGet x ((i : Nat) + g) = .ok v := fun i => (pyGet_exists x _).2 (h i i.2)
    choose f hf using this
    refine ⟨List.ofFn f, (column_ok _ _ _ _).2 ⟨by simp, ?_⟩⟩
    intro i v hv
    obtain ⟨hi, hv⟩ := List.getElem?_eq_some_iff.1 hv
    rw [List.getElem_ofFn] at hv
    rw [← pyGet_ok, ← hv]
    exact hf ⟨i, by simpa using hi⟩

theorem hankel_ok (x : List α) (n : Nat) (gen : Option (List Int)) (T : List (List α)) :
    hankel x n gen = .ok T ↔ gen.getD ((List.range n).map (fun (j : Nat) => (j : Int))) ≠ [] ∧
      List.Forall₂ (fun g c => column x (x.length + 1 - n) g = .ok c)
        (gen.getD ((List.range n).map (fun (j : Nat) => (j : Int)))) T := by
  unfold hankel
  simp only
  rw [← mapM_ok_iff]
  generalize gen.getD ((List.range n).map (fun (j : Nat) => (j : Int))) = gs
  cases gs.mapM (column x (x.length + 1 - n)) with
  | error e => simp
  | ok h =>
    simp only [Except.ok.injEq]
    by_cases hg : gs = [] <;> simp [hg]

/-- C33 (generators): one column per generator, `len(x) - n + 1` rows (none if `n` exceeds the length), and row `i`,
column `j` is the sample `x[i + g_j]`, counted from the end of `x` when `i + g_j` is negative. -/
theorem C33_generated_entries (x : List α) (n : Nat) (gs : List Int) (T : List (List α)) (h : hankel x n (some gs) = .ok T) :
    T.length = gs.length ∧ (∀ c ∈ T, c.length = x.length + 1 - n) ∧
      ∀ (i j : Nat) (g : Int), i < x.length + 1 - n → gs[j]? = some g → ∃ v, entry T i j = some v ∧ Refers x (i + g) v := by
  obtain ⟨-, hf⟩ := (hankel_ok x n (some gs) T).1 h
  simp only [Option.getD_some] at hf
  have hl := hf.length_eq
  have hget := (List.forall₂_iff_get.1 hf).2
  refine ⟨hl.symm, ?_, ?_⟩
  · intro c hc
    obtain ⟨j, hj, rfl⟩ := List.mem_iff_getElem.1 hc
    exact ((column_ok _ _ _ _).1 (hget j (by omega) hj)).1
  · intro i j g hi hg
    obtain ⟨hj, hg⟩ := List.getElem?_eq_some_iff.1 hg
    obtain ⟨cl, cv⟩ := (column_ok _ _ _ _).1 (hget j hj (by omega))
    simp only [List.get_eq_getElem] at cl cv
    rw [hg] at cv
    refine ⟨T[j][i], ?_, cv i _ (List.getElem?_eq_getElem (by omega))⟩
    unfold entry
    rw [List.getElem?_eq_getElem (by omega), Option.bind_some, List.getElem?_eq_getElem (by omega)]

/-- C33 (acceptance): there must be a generator, and unless the window is longer than the vector every generator lies
between `-len(x)` and `n - 1`. -/
theorem C33_accepts_iff (x : List α) (n : Nat) (gs : List Int) :
    (∃ T, hankel x n (some gs) = .ok T) ↔
      gs ≠ [] ∧ (n ≤ x.length → ∀ g ∈ gs, -(x.length : Int) ≤ g ∧ g ≤ (n : Int) - 1) := by
  by_cases hn : n ≤ x.length
  · constructor
    · rintro ⟨T, h⟩
      obtain ⟨h0, hf⟩ := (hankel_ok x n (some gs) T).1 h
      simp only [Option.getD_some] at hf h0
      refine ⟨h0, fun _ g hg => ?_⟩
      obtain ⟨j, hj, rfl⟩ := List.mem_iff_getElem.1 hg
      have := (List.forall₂_iff_get.1 hf).2 j hj (by have := hf.length_eq; omega)
      have := (column_exists _ _ _).1 ⟨_, this⟩
      simp only [List.get_eq_getElem] at this
      have a := this 0 (by omega)
      have b := this (x.length - n) (by omega)
      push_cast [hn] at a b
      omega
    · rintro ⟨h0, hg⟩
      have : ∀ j : Fin gs.length, ∃ c, column x (x.length + 1 - n) gs[j] = .ok c := by
        intro j
        refine (column_exists _ _ _).2 ?_
        intro i hi
        have := hg hn gs[j] (List.getElem_mem _)
        omega
      choose f hf using this
      refine ⟨List.ofFn f, (hankel_ok _ _ _ _).2 ⟨h0, ?_⟩⟩
      refine List.forall₂_iff_get.2 ⟨by simp, ?_⟩
      intro j h1 h2
      have := hf ⟨j, h1⟩
      simpa using this
  · constructor
    · rintro ⟨T, h⟩
      exact ⟨((hankel_ok x n (some gs) T).1 h).1, fun h => absurd h hn⟩
    · rintro ⟨h0, -⟩
      refine ⟨gs.map (fun _ => []), (hankel_ok _ _ _ _).2 ⟨h0, ?_⟩⟩
      have hm : x.length + 1 - n = 0 := by omega
      simp only [Option.getD_some, hm]
      rw [List.forall₂_map_right_iff, List.forall₂_same]
      intro g _
      rfl

theorem hankel_default (x : List α) (n : Nat) :
    hankel x n none = hankel x n (some ((List.range n).map (fun (j : Nat) => (j : Int)))) := rfl

/-- C33: `hankel(x, n)` succeeds exactly for `n ≥ 1`; it has `len(x) - n + 1` rows and `n` columns, and its row `i` is the
window `x[i], …, x[i+n-1]`. -/
theorem C33_windows (x : List α) (n : Nat) :
    ((∃ T, hankel x n none = .ok T) ↔ 1 ≤ n) ∧
    ∀ T, hankel x n none = .ok T → T.length = n ∧ (∀ c ∈ T, c.length = x.length + 1 - n) ∧
      ∀ i j, i < x.length + 1 - n → j < n → (entry T i j).isSome ∧ entry T i j = x[i + j]? := by
  rw [hankel_default]
  constructor
  · rw [C33_accepts_iff]
    constructor
    · rintro ⟨h, -⟩
      rcases Nat.eq_zero_or_pos n with rfl | h'
      · simp at h
      · exact h'
    · intro h
      refine ⟨by simp; omega, ?_⟩
      intro _ g hg
      simp only [List.mem_map, List.mem_range] at hg
      obtain ⟨j, hj, rfl⟩ := hg
      omega
  · intro T h
    obtain ⟨h1, h2, h3⟩ := C33_generated_entries x n _ T h
    refine ⟨by simpa using h1, h2, ?_⟩
    intro i j hi hj
    obtain ⟨v, hv, hr⟩ := h3 i j (j : Int) hi (by simp [hj])
    rw [hv]
    refine ⟨rfl, ?_⟩
    rcases hr with ⟨-, hr⟩ | ⟨hr, -⟩
    · rw [← hr]; congr 1
    · omega

/-- C33 (overlap): row `i + 1` is row `i` shifted by one. -/
theorem C33_rows_overlap (x : List α) (n : Nat) (T : List (List α)) (h : hankel x n none = .ok T) (i j : Nat)
    (hi : i + 1 < x.length + 1 - n) (hj : j + 1 < n) : entry T i (j + 1) = entry T (i + 1) j := by
  obtain ⟨-, -, h3⟩ := (C33_windows x n).2 T h
  rw [(h3 i (j + 1) (by omega) hj).2, (h3 (i + 1) j hi (by omega)).2, show i + (j + 1) = i + 1 + j by omega]

/-- C33 (nothing lost): two vectors at least as long as the window with the same table are equal. -/
theorem C33_determines_vector (x y : List α) (n : Nat) (hx : n ≤ x.length) (hy : n ≤ y.length) (T : List (List α))
    (h1 : hankel x n none = .ok T) (h2 : hankel y n none = .ok T) : x = y := by
  have hn : 1 ≤ n := (C33_windows x n).1.1 ⟨T, h1⟩
  obtain ⟨a1, a2, a3⟩ := (C33_windows x n).2 T h1
  obtain ⟨b1, b2, b3⟩ := (C33_windows y n).2 T h2
  have hT : T[0]'(by omega) ∈ T := List.getElem_mem _
  have hlen : x.length = y.length := by
    have := a2 _ hT
    have := b2 _ hT
    omega
  apply List.ext_getElem? 
  intro k
  by_cases hk : k < x.length
  · by_cases hk2 : k < x.length + 1 - n
    · have := (a3 k 0 hk2 (by omega)).2.symm.trans (b3 k 0 (by omega) (by omega)).2
      simpa using this
    · have := (a3 (x.length - n) (k - (x.length - n)) (by omega) (by omega)).2.symm.trans
        (b3 (x.length - n) (k - (x.length - n)) (by omega) (by omega)).2
      rwa [show x.length - n + (k - (x.length - n)) = k by omega] at this
  · rw [List.getElem?_eq_none (by omega), List.getElem?_eq_none (by omega)]

/-- C33 (defect): a negative generator does not refer to the past: the first rows silently take samples from the end of
the vector, that is from later than every other sample of the row. -/
theorem C33_negative_generator_reads_the_end (x : List α) (n : Nat) (g : Nat) (hgn : g ≤ x.length) (T : List (List α))
    (h : hankel x n (some [-(g : Int)]) = .ok T) (i : Nat) (hi : i < g) (him : i < x.length + 1 - n) :
    entry T i 0 = x[x.length - g + i]? := by
  obtain ⟨-, -, h3⟩ := C33_generated_entries x n _ T h
  obtain ⟨v, hv, hr⟩ := h3 i 0 _ him rfl
  rw [hv]
  rcases hr with ⟨hr, -⟩ | ⟨-, -, hr⟩
  · omega
  · rw [← hr]; congr 1; omega

example : hankel [10, 20, 30, 40, 50] 3 none = .ok [[10, 20, 30], [20, 30, 40], [30, 40, 50]] := rfl
example : hankel [10, 20, 30, 40, 50] 3 (some [2, 0]) = .ok [[30, 40, 50], [10, 20, 30]] := rfl
example : hankel [10, 20, 30, 40, 50] 3 (some [3]) = .error .indexError := rfl
example : hankel [10, 20, 30, 40, 50] 3 (some [-1]) = .ok [[50, 10, 20]] := rfl
example : hankel [10, 20] 5 none = .ok [[], [], [], [], []] := rfl
example : hankel [10, 20] 0 none = .error .valueError := rfl

end PyF.Hankel
