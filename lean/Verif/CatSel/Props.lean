import Verif.CatSel.Model
import Mathlib.Data.Set.Card
import Mathlib.Data.Finset.Card
import Mathlib.Data.List.Nodup

/-! C316: columns chosen as categorical. -/

namespace PyF.CatSel

variable {N V W : Type} [DecidableEq V] [DecidableEq W]

/-! ### Specification -/

/-- The values that occur in a column. -/
def Occurs (c : List (Option V)) : Set V := {v | some v ∈ c}

/-- How many different values occur in a column. -/
noncomputable def classes (c : List (Option V)) : ℕ := (Occurs c).ncard

/-! ### Lemmas -/

theorem occurs_eq (c : List (Option V)) : Occurs c = ↑(c.reduceOption.toFinset) := by
  ext v
  simp [Occurs, List.reduceOption_mem_iff]

theorem nunique_eq (c : List (Option V)) : nunique c = classes c := by
  unfold nunique classes
  rw [occurs_eq, Set.ncard_coe_finset]
  rfl

theorem classes_mono {c c' : List (Option V)} (h : c' ⊆ c) : classes c' ≤ classes c := by
  unfold classes
  refine Set.ncard_le_ncard (fun v hv => h hv) ?_
  rw [occurs_eq]
  exact Finset.finite_toSet _

theorem classes_le_length (c : List (Option V)) : classes c ≤ c.length := by
  rw [← nunique_eq]
  exact ((List.dedup_sublist _).length_le).trans (List.reduceOption_length_le c)

omit [DecidableEq V] [DecidableEq W] in
theorem classes_recode (f : V → W) (hf : Function.Injective f) (c : List (Option V)) : classes (c.map (Option.map f)) = classes c := by
  unfold classes
  have : Occurs (c.map (Option.map f)) = f '' Occurs c := by
    ext w
    simp only [Occurs, Set.mem_ofPred_eq, List.mem_map, Set.mem_image]
    constructor
    · rintro ⟨o, ho, hw⟩
      cases o with
      | none => cases hw
      | some v => exact ⟨v, ho, by simpa using hw⟩
    · rintro ⟨v, hv, rfl⟩
      exact ⟨some v, hv, rfl⟩
  rw [this, Set.ncard_image_of_injective _ hf]

/-! ### Theorems -/

/-- C316: a column is chosen exactly if at most `maxNum` different values occur in it (not more than that many, as the docstring has it); the columns
chosen keep their order. -/
theorem C316_chosen (df : List (N × List (Option V))) (maxNum : ℤ) :
    (autoCat df maxNum).Sublist (df.map Prod.fst) ∧
    ∀ n : N, n ∈ autoCat df maxNum ↔ ∃ c, (n, c) ∈ df ∧ (classes c : ℤ) ≤ maxNum := by
  constructor
  · exact List.Sublist.map _ List.filter_sublist
  · intro n
    unfold autoCat
    simp only [List.mem_map, List.mem_filter, decide_eq_true_eq, nunique_eq]
    constructor
    · rintro ⟨⟨n', c⟩, ⟨h1, h2⟩, rfl⟩
      exact ⟨c, h1, h2⟩
    · rintro ⟨c, h1, h2⟩
      exact ⟨(n, c), ⟨h1, h2⟩, rfl⟩

/-- C316 (short frames): a frame with at most `maxNum` rows has all its columns chosen, the target included. -/
theorem C316_short (df : List (N × List (Option V))) (maxNum : ℤ) (h : ∀ p ∈ df, (p.2.length : ℤ) ≤ maxNum) :
    autoCat df maxNum = df.map Prod.fst := by
  unfold autoCat
  rw [List.filter_eq_self.2]
  intro p hp
  have h1 := classes_le_length p.2
  have h2 := h p hp
  simp only [decide_eq_true_eq, nunique_eq]
  omega

/-- C316 (fewer rows): of a frame whose columns hold only values of the columns of another one — some of its rows, in any order — at least the same
columns are chosen. -/
theorem C316_fewer_rows (df : List (N × List (Option V))) (rows : List (Option V) → List (Option V)) (hr : ∀ c, rows c ⊆ c) (maxNum : ℤ) :
    (autoCat df maxNum).Sublist (autoCat (df.map (fun p => (p.1, rows p.2))) maxNum) := by
  induction df with
  | nil => exact List.Sublist.slnil
  | cons p df ih =>
    unfold autoCat at ih ⊢
    simp only [List.map_cons, List.filter_cons]
    have hm := classes_mono (hr p.2)
    by_cases h1 : (nunique p.2 : ℤ) ≤ maxNum
    · have h2 : (nunique (rows p.2) : ℤ) ≤ maxNum := by rw [nunique_eq] at h1 ⊢; omega
      rw [if_pos (decide_eq_true h1), if_pos (decide_eq_true h2)]
      exact List.Sublist.cons_cons _ ih
    · rw [if_neg (by simpa using h1)]
      split
      · exact List.Sublist.cons _ ih
      · exact ih

/-- C316 (codes): the choice does not depend on how the values are written: an injective recoding of each column (other units, labels for numbers)
changes nothing. -/
theorem C316_recoded (df : List (N × List (Option V))) (f : N → V → W) (hf : ∀ n, Function.Injective (f n)) (maxNum : ℤ) :
    autoCat (df.map (fun p => (p.1, p.2.map (Option.map (f p.1))))) maxNum = autoCat df maxNum := by
  unfold autoCat
  rw [List.filter_map, List.map_map]
  congr 1
  congr 1
  funext p
  simp only [Function.comp, nunique_eq, classes_recode _ (hf p.1)]

/-- C316 (larger bound): with a larger bound at least the same columns are chosen; with the bound 0 exactly those without any value, with a negative
bound none. -/
theorem C316_bound (df : List (N × List (Option V))) :
    (∀ a b : ℤ, a ≤ b → (autoCat df a).Sublist (autoCat df b)) ∧
    (∀ n : N, n ∈ autoCat df 0 ↔ ∃ c, (n, c) ∈ df ∧ ∀ o ∈ c, o = none) ∧
    (∀ a : ℤ, a < 0 → autoCat df a = []) := by
  refine ⟨?_, ?_, ?_⟩
  · intro a b hab
    refine List.Sublist.map _ (List.monotone_filter_right df ?_)
    intro p hp
    simp only [decide_eq_true_eq] at hp ⊢
    omega
  · intro n
    rw [(C316_chosen df 0).2 n]
    refine exists_congr (fun c => and_congr_right (fun _ => ?_))
    have hfin : (Occurs c).Finite := by rw [occurs_eq]; exact Finset.finite_toSet _
    constructor
    · intro h o ho
      have h0 : (Occurs c).ncard = 0 := by unfold classes at h; omega
      rw [Set.ncard_eq_zero hfin] at h0
      cases o with
      | none => rfl
      | some v =>
        have : v ∈ Occurs c := ho
        rw [h0] at this
        cases this
    · intro h
      have h0 : Occurs c = ∅ := by
        ext v
        simp only [Occurs, Set.mem_ofPred_eq, Set.mem_empty_iff_false, iff_false]
        intro hv
        cases h _ hv
      unfold classes
      rw [h0]
      simp
  · intro a ha
    rw [List.eq_nil_iff_forall_not_mem]
    intro n hn
    obtain ⟨c, _, hc⟩ := ((C316_chosen df a).2 n).1 hn
    omega

/-- C316 (default): the columns of at most 24 different values are chosen. -/
theorem C316_default (df : List (N × List (Option V))) (n : N) : n ∈ autoCat df defaultMax ↔ ∃ c, (n, c) ∈ df ∧ classes c ≤ 24 := by
  rw [(C316_chosen df defaultMax).2 n]
  have h : ∀ k : ℕ, (k : ℤ) ≤ defaultMax ↔ k ≤ 24 := fun k => by
    unfold defaultMax
    exact_mod_cast Iff.rfl
  simp only [h]

end PyF.CatSel
