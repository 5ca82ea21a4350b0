import Verif.Utils.Model

/-! Lemmas about the dictionary of slices and about blocks of equal length. -/

namespace PyF.Utils
open PyF

theorem pairs_succ {O : Type} (m : Nat) (second : List O) :
    pairs (m + 1) second = pairs m second ++ (second[m]?.map (fun s => (m, s))).toList := by
  unfold pairs
  rw [List.range_succ]
  by_cases h : m < second.length
  · have : second = second.take m ++ second.drop m := (List.take_append_drop m second).symm
    rw [List.getElem?_eq_getElem h]
    conv_lhs => rw [this]
    rw [List.zip_append (by simp; omega)]
    rw [List.drop_eq_getElem_cons h]
    congr 1
    · conv_rhs => rw [this]
      rw [← List.append_nil (List.range m), List.zip_append (by simp; omega)]
      simp
  · rw [List.getElem?_eq_none (by omega)]
    simp only [Option.map_none, Option.toList_none, List.append_nil]
    apply List.ext_getElem?
    intro i
    apply Option.ext
    intro p
    simp only [List.getElem?_zip_eq_some]
    constructor
    · rintro ⟨h1, h2⟩
      have hi : i < second.length := by
        by_contra hc
        rw [List.getElem?_eq_none (by omega)] at h2
        cases h2
      rw [List.getElem?_append_left (by simp; omega)] at h1
      exact ⟨h1, h2⟩
    · rintro ⟨h1, h2⟩
      have hi : i < second.length := by
        by_contra hc
        rw [List.getElem?_eq_none (by omega)] at h2
        cases h2
      rw [List.getElem?_append_left (by simp; omega)]
      exact ⟨h1, h2⟩

variable {O I : Type} [DecidableEq O] [DecidableEq I]

theorem slices_succ (m : Nat) (second : List O) :
    slices (m + 1) second = match second[m]? with | some s => assign (slices m second) s m | none => slices m second := by
  unfold slices
  rw [pairs_succ, List.foldl_append]
  cases second[m]? <;> rfl

omit [DecidableEq I] in
theorem mem_keys_assign {V : Type} (d : List (O × V)) (k : O) (v : V) (a : O) :
    a ∈ (assign d k v).map Prod.fst ↔ a = k ∨ a ∈ d.map Prod.fst := by
  unfold assign
  split
  · rename_i h
    have : (d.map (fun e => if e.1 = k then (k, v) else e)).map Prod.fst = d.map Prod.fst := by
      rw [List.map_map]
      apply List.map_congr_left
      intro e _
      simp only [Function.comp]
      split
      · rename_i he; exact he.symm
      · rfl
    rw [this]
    constructor
    · exact Or.inr
    · rintro (rfl | h')
      · exact h
      · exact h'
  · simp [or_comm]

omit [DecidableEq I] in
theorem nodup_keys_assign {V : Type} (d : List (O × V)) (k : O) (v : V) (hd : (d.map Prod.fst).Nodup) :
    ((assign d k v).map Prod.fst).Nodup := by
  unfold assign
  split
  · have : (d.map (fun e => if e.1 = k then (k, v) else e)).map Prod.fst = d.map Prod.fst := by
      rw [List.map_map]
      apply List.map_congr_left
      intro e _
      simp only [Function.comp]
      split
      · rename_i he; exact he.symm
      · rfl
    rwa [this]
  · rename_i h
    rw [List.map_append, List.nodup_append]
    refine ⟨hd, by simp, ?_⟩
    intro a ha b hb
    simp at hb
    subst hb
    rintro rfl
    exact h ha

omit [DecidableEq I] in
theorem mem_assign {V : Type} (d : List (O × V)) (k : O) (v : V) (a : O) (b : V) :
    (a, b) ∈ assign d k v ↔ (a = k ∧ b = v) ∨ (a ≠ k ∧ (a, b) ∈ d) := by
  unfold assign
  split
  · rename_i h
    rw [List.mem_map]
    constructor
    · rintro ⟨e, he, heq⟩
      split at heq
      · cases heq; exact Or.inl ⟨rfl, rfl⟩
      · rename_i hne; subst heq; exact Or.inr ⟨hne, he⟩
    · rintro (⟨rfl, rfl⟩ | ⟨hne, hm⟩)
      · rw [List.mem_map] at h
        obtain ⟨e, he, hk⟩ := h
        exact ⟨e, he, by rw [if_pos hk]⟩
      · exact ⟨(a, b), hm, by simp [hne]⟩
  · rename_i h
    rw [List.mem_append, List.mem_singleton, Prod.mk.injEq]
    constructor
    · rintro (hm | heq)
      · by_cases hk : a = k
        · subst hk; exact absurd (List.mem_map_of_mem hm) h
        · exact Or.inr ⟨hk, hm⟩
      · exact Or.inl heq
    · rintro (heq | ⟨_, hm⟩)
      · exact Or.inr heq
      · exact Or.inl hm

theorem slices_nodup (m : Nat) (second : List O) : ((slices m second).map Prod.fst).Nodup := by
  induction m with
  | zero => simp [slices, pairs]
  | succ m ih =>
    rw [slices_succ]
    cases second[m]? with
    | none => exact ih
    | some s => exact nodup_keys_assign _ _ _ ih

/-- A key of the dictionary holds the last slice with that key. -/
theorem mem_slices (m : Nat) (second : List O) (k : O) (i : Nat) :
    (k, i) ∈ slices m second ↔ i < m ∧ second[i]? = some k ∧ ∀ (j : Nat), i < j → j < m → second[j]? ≠ some k := by
  induction m with
  | zero => simp [slices, pairs]
  | succ m ih =>
    rw [slices_succ]
    cases hs : second[m]? with
    | none =>
      simp only
      rw [ih]
      constructor
      · rintro ⟨h1, h2, h3⟩
        refine ⟨by omega, h2, ?_⟩
        intro j hj hjm
        by_cases hjm' : j = m
        · subst hjm'; rw [hs]; simp
        · exact h3 j hj (by omega)
      · rintro ⟨h1, h2, h3⟩
        have : i ≠ m := by rintro rfl; rw [hs] at h2; cases h2
        exact ⟨by omega, h2, fun j hj hjm => h3 j hj (by omega)⟩
    | some s =>
      simp only
      rw [mem_assign, ih]
      constructor
      · rintro (⟨rfl, rfl⟩ | ⟨hne, h1, h2, h3⟩)
        · exact ⟨by omega, hs, fun j h1 h2 => by omega⟩
        · refine ⟨by omega, h2, ?_⟩
          intro j hj hjm
          by_cases hjm' : j = m
          · subst hjm'; rw [hs]; intro h; exact hne (by injection h with h; exact h.symm)
          · exact h3 j hj (by omega)
      · rintro ⟨h1, h2, h3⟩
        by_cases him : i = m
        · subst him
          rw [hs] at h2
          exact Or.inl ⟨by injection h2 with h; exact h.symm, rfl⟩
        · refine Or.inr ⟨?_, by omega, h2, fun j hj hjm => h3 j hj (by omega)⟩
          rintro rfl
          exact h3 m (by omega) (by omega) hs

/-- Without repeated keys the dictionary is the list of the keys with their positions. -/
theorem slices_of_nodup (m : Nat) (second : List O) (hn : second.Nodup) : slices m second = (pairs m second).map Prod.swap := by
  induction m with
  | zero => rfl
  | succ m ih =>
    rw [slices_succ, pairs_succ]
    cases hs : second[m]? with
    | none => simp [ih]
    | some s =>
      simp only [Option.map_some, Option.toList_some, List.map_append, List.map_cons, List.map_nil]
      unfold assign
      rw [if_neg]
      · rw [ih]; rfl
      · intro hmem
        rw [List.mem_map] at hmem
        obtain ⟨⟨a, i⟩, hm, rfl⟩ := hmem
        rw [mem_slices] at hm
        obtain ⟨h1, h2, _⟩ := hm
        have h4 := List.getElem?_eq_some_iff.mp h2
        have h5 := List.getElem?_eq_some_iff.mp hs
        obtain ⟨h4, h4'⟩ := h4
        obtain ⟨h5, h5'⟩ := h5
        have := (List.Nodup.getElem_inj_iff hn (hi := h4) (hj := h5)).mp (by rw [h4', h5'])
        omega

theorem slices_length_of_nodup (m : Nat) (second : List O) (hn : second.Nodup) : (slices m second).length = min m second.length := by
  rw [slices_of_nodup m second hn]; simp [pairs]

theorem slices_get_of_nodup (m : Nat) (second : List O) (hn : second.Nodup) (q : Nat) (hq : q < m) (s : O) (hs : second[q]? = some s) :
    (slices m second)[q]? = some (s, q) := by
  rw [slices_of_nodup m second hn, List.getElem?_map]
  have : (pairs m second)[q]? = some (q, s) := by
    unfold pairs
    rw [List.getElem?_zip_eq_some]
    exact ⟨by simp [hq], hs⟩
  rw [this]; rfl

omit [DecidableEq O] [DecidableEq I] in
theorem flat_length {A B : Type} (l : List A) (g : A → List B) (w : Nat) (hw : ∀ a, (g a).length = w) : (l.flatMap g).length = l.length * w := by
  induction l with
  | nil => simp
  | cons a l ih => rw [List.flatMap_cons, List.length_append, ih, hw, List.length_cons]; ring

omit [DecidableEq O] [DecidableEq I] in
theorem flat_get {A B : Type} (l : List A) (g : A → List B) (w : Nat) (hw : ∀ a, (g a).length = w) (q p : Nat) (hp : p < w) :
    (l.flatMap g)[q * w + p]? = l[q]?.bind (fun a => (g a)[p]?) := by
  induction l generalizing q with
  | nil => simp
  | cons a l ih =>
    rw [List.flatMap_cons]
    cases q with
    | zero => rw [List.getElem?_append_left (by rw [hw]; omega)]; simp
    | succ q =>
      rw [List.getElem?_append_right (by rw [hw]; nlinarith), hw]
      have : (q + 1) * w + p - w = q * w + p := by rw [Nat.succ_mul]; omega
      rw [this, ih]; simp

end PyF.Utils
