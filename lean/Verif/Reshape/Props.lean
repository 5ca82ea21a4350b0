import Verif.Reshape.Model
import Mathlib.Tactic.Ring
import Mathlib.Tactic.Linarith
import Mathlib.Data.List.GetD
import Mathlib.Data.List.OfFn

/-!
Properties C09, C10 and C76: quantile frames and arrays.
-/

namespace PyF.Reshape
open PyF

/-- The nested-list form of an array, used as the specification of what an array with given entries is. -/
def asLists {α : Type} {n t k : Nat} (q : Fin n → Fin t → Fin k → α) : List (List (List α)) :=
  List.ofFn fun i => List.ofFn fun j => List.ofFn fun l => q i j l

theorem product_getElem? {L Q : Type} (a : List L) (b : List Q) (j l : Nat) (hj : j < a.length)
    (hl : l < b.length) : (a ×ˢ b)[j * b.length + l]? = some (a[j], b[l]) := by
  induction a generalizing j with
  | nil => simp at hj
  | cons x a ih =>
    rw [List.product_cons]
    cases j with
    | zero =>
      rw [Nat.zero_mul, Nat.zero_add, List.getElem?_append_left (by simpa using hl)]
      simp [hl]
    | succ j =>
      rw [List.getElem?_append_right (by simp; nlinarith)]
      have : (j + 1) * b.length + l - (b.map (fun y => (x, y))).length = j * b.length + l := by
        rw [List.length_map]
        have : (j + 1) * b.length = j * b.length + b.length := by ring
        omega
      rw [this, ih j (by simpa using hj)]
      simp

/-- Column number of the pair (target `j`, level `l`). -/
theorem flat_lt {t k j l : Nat} (hj : j < t) (hl : l < k) : j * k + l < t * k := by
  calc j * k + l < j * k + k := by omega
    _ = (j + 1) * k := by ring
    _ ≤ t * k := Nat.mul_le_mul_right _ hj

/-- **C09 (a).** The frame puts value `(i, j, l)` in row `i` under the column labelled
`(target j, level l)`; there is one column per pair and, for distinct labels, that column is unique. -/
theorem C09_labels {L Q α : Type} {n : Nat} (targets : List L) (levels : List Q)
    (q : Fin n → Fin targets.length → Fin levels.length → α) :
    ∃ df, toDf targets levels q = .ok df ∧ df.rows.length = n ∧
      df.columns.length = targets.length * levels.length ∧
      (targets.Nodup → levels.Nodup → df.columns.Nodup) ∧
      ∀ (i : Fin n) (j : Fin targets.length) (l : Fin levels.length), ∃ (c : Nat) (row : List α),
        df.columns[c]? = some (targets[j], levels[l]) ∧ df.rows[i.val]? = some row ∧
          row[c]? = some (q i j l) := by
  refine ⟨_, by rw [toDf, if_neg (by simp [List.length_product])], by simp, by simp [List.length_product], ?_, ?_⟩
  · intro h1 h2; exact h1.product h2
  · intro i j l
    refine ⟨j.val * levels.length + l.val, _, product_getElem? _ _ _ _ j.2 l.2,
      by rw [List.getElem?_ofFn, dif_pos i.2], ?_⟩
    have hlt := flat_lt j.2 l.2
    rw [List.getElem?_ofFn, dif_pos hlt]
    have hpos : 0 < levels.length := by have := l.2; omega
    congr 2
    · ext; simp only [Fin.coe_divNat]
      rw [Nat.add_comm, Nat.add_mul_div_right _ _ hpos, Nat.div_eq_of_lt l.2, Nat.zero_add]
    · ext; simp only [Fin.coe_modNat]
      rw [Nat.add_comm, Nat.add_mul_mod_self_right, Nat.mod_eq_of_lt l.2]

theorem nTaus_product {L Q α : Type} [DecidableEq Q] (targets : List L) (levels : List Q)
    (rows : List (List α)) (ht : targets ≠ []) (hl : levels.Nodup) :
    nTaus (⟨targets ×ˢ levels, rows⟩ : QFrame L Q α) = levels.length := by
  unfold nTaus
  have hmem : ∀ a, a ∈ ((targets ×ˢ levels).map Prod.snd).dedup ↔ a ∈ levels := by
    intro a
    rw [List.mem_dedup, List.mem_map]
    constructor
    · rintro ⟨⟨x, y⟩, h, rfl⟩; exact (List.mem_product.1 h).2
    · intro h
      obtain ⟨x, hx⟩ := List.exists_mem_of_ne_nil _ ht
      exact ⟨(x, a), List.mem_product.2 ⟨hx, h⟩, rfl⟩
  have : ((targets ×ˢ levels).map Prod.snd).dedup.Perm levels :=
    (List.perm_ext_iff_of_nodup (List.nodup_dedup _) hl).2 hmem
  exact this.length_eq

theorem chunks_ofFn {α : Type} (m k : Nat) (f : Nat → α) :
    chunks m k (List.ofFn (fun c : Fin (m * k) => f c.val))
      = List.ofFn (fun j : Fin m => List.ofFn (fun l : Fin k => f (j.val * k + l.val))) := by
  unfold chunks
  apply List.ext_getElem
  · simp
  · intro j h1 h2
    simp only [List.length_map, List.length_range] at h1
    simp only [List.getElem_map, List.getElem_range, List.getElem_ofFn]
    apply List.ext_getElem
    · simp only [List.length_take, List.length_drop, List.length_ofFn]
      have := flat_lt (l := 0) (k := k) h1
      have h3 : (j + 1) * k ≤ m * k := Nat.mul_le_mul_right _ h1
      have h4 : (j + 1) * k = j * k + k := by ring
      omega
    · intro l h3 h4
      simp

theorem fin_fun_ext {α : Type} {t k : Nat} (g : Fin t → Fin k → α) (d : α) :
    ∃ f : Nat → α, ∀ c : Fin (t * k), f c.val = g c.divNat c.modNat :=
  ⟨fun c => if h : c < t * k then g (⟨c, h⟩ : Fin (t * k)).divNat (⟨c, h⟩ : Fin (t * k)).modNat else d,
   fun c => by simp [c.2]⟩

/-- **C09 (b), round trip.** For distinct levels and at least one row, target and level, converting to
the frame and back returns the original array. -/
theorem C09_round_trip {L Q α : Type} [DecidableEq Q] {n : Nat} (targets : List L) (levels : List Q)
    (q : Fin n → Fin targets.length → Fin levels.length → α)
    (hn : 0 < n) (ht : targets ≠ []) (hl : levels ≠ []) (hnd : levels.Nodup) :
    (toDf targets levels q).bind toNumpy = .ok (asLists q) := by
  have hlpos : 0 < levels.length := List.length_pos_iff.2 hl
  have hlen : (targets ×ˢ levels).length = targets.length * levels.length := List.length_product ..
  rw [toDf, if_neg (by simp [hlen])]
  simp only [Except.bind, toNumpy]
  rw [nTaus_product targets levels _ ht hnd, hlen, Nat.mul_mod_left, Nat.mul_div_cancel _ hlpos]
  rw [if_neg (by simp only [List.length_ofFn]; omega), if_neg (by simp)]
  congr 1
  unfold asLists
  rw [List.map_ofFn]
  congr 1
  funext i
  obtain ⟨f, hf⟩ := fin_fun_ext (q i) (q i ⟨0, List.length_pos_iff.2 ht⟩ ⟨0, hlpos⟩)
  simp only [Function.comp_apply]
  rw [show (fun c : Fin (targets.length * levels.length) => q i c.divNat c.modNat) = (fun c => f c.val)
    from funext (fun c => (hf c).symm), chunks_ofFn]
  congr 1
  funext j
  congr 1
  funext l
  have hlt := flat_lt j.2 l.2
  rw [hf ⟨_, hlt⟩]
  congr 1
  · ext; simp only [Fin.coe_divNat]
    rw [Nat.add_comm, Nat.add_mul_div_right _ _ hlpos, Nat.div_eq_of_lt l.2, Nat.zero_add]
  · ext; simp only [Fin.coe_modNat]
    rw [Nat.add_comm, Nat.add_mul_mod_self_right, Nat.mod_eq_of_lt l.2]

/-- **C09 (c).** On an empty frame the conversion back raises. -/
theorem C09_empty_frame {L Q α : Type} [DecidableEq Q] (df : QFrame L Q α) (h : df.rows = []) :
    toNumpy df = .error .valueError := by
  simp [toNumpy, h]

theorem swap_ofFn {α : Type} (t k : Nat) (f : Nat → α) :
    swap t (List.ofFn (fun l : Fin k => List.ofFn (fun j : Fin t => f (l.val * t + j.val))))
      = List.ofFn (fun j : Fin t => List.ofFn (fun l : Fin k => f (l.val * t + j.val))) := by
  unfold swap
  apply List.ext_getElem
  · simp
  · intro j h1 h2
    simp only [List.length_map, List.length_range] at h1
    simp only [List.getElem_map, List.getElem_range, List.getElem_ofFn]
    have hfm : ∀ (m : List Nat), (m.map (fun l => List.ofFn (fun j : Fin t => f (l * t + j.val)))).filterMap
        (fun c => c[j]?) = m.map (fun l => f (l * t + j)) := by
      intro m
      induction m with
      | nil => rfl
      | cons a m ih =>
        rw [List.map_cons, List.filterMap_cons_some (b := f (a * t + j)), ih, List.map_cons]
        rw [List.getElem?_ofFn, dif_pos h1]
    have hof : ∀ {β : Type} (g : Nat → β), List.ofFn (fun l : Fin k => g l.val) = (List.range k).map g := by
      intro β g
      apply List.ext_getElem <;> simp
    rw [hof (fun l => List.ofFn (fun j : Fin t => f (l * t + j.val))), hfm, hof (fun l => f (l * t + j))]

/-- **C10 (a).** What the QRF conversion returns at `(i, j, l)`: the entry of the row-major
`(target, level)` row at position `l * n_targets + j`, i.e. target `(l*T + j) / K`, level `(l*T + j) % K`. -/
theorem C10_qrf_layout {L Q α : Type} [DecidableEq Q] {n : Nat} (targets : List L) (levels : List Q)
    (q : Fin n → Fin targets.length → Fin levels.length → α)
    (hn : 0 < n) (ht : targets ≠ []) (hl : levels ≠ []) (hnd : levels.Nodup) :
    ∃ r, (toDf targets levels q).bind qrfToNumpy = .ok (asLists r) ∧
      ∀ (i : Fin n) (j : Fin targets.length) (l : Fin levels.length),
        ∃ (j' : Fin targets.length) (l' : Fin levels.length),
          j'.val * levels.length + l'.val = l.val * targets.length + j.val ∧ r i j l = q i j' l' := by
  have hlpos : 0 < levels.length := List.length_pos_iff.2 hl
  have htpos : 0 < targets.length := List.length_pos_iff.2 ht
  have hlen : (targets ×ˢ levels).length = targets.length * levels.length := List.length_product ..
  have hbound : ∀ (j : Fin targets.length) (l : Fin levels.length),
      l.val * targets.length + j.val < targets.length * levels.length := by
    intro j l
    have := flat_lt l.2 j.2
    rwa [Nat.mul_comm targets.length] 
  let pick : Fin targets.length → Fin levels.length → Fin (targets.length * levels.length) :=
    fun j l => ⟨_, hbound j l⟩
  refine ⟨fun i j l => q i (pick j l).divNat (pick j l).modNat, ?_, ?_⟩
  · rw [toDf, if_neg (by simp [hlen])]
    simp only [Except.bind, qrfToNumpy]
    rw [nTaus_product targets levels _ ht hnd, hlen, Nat.mul_mod_left, Nat.mul_div_cancel _ hlpos]
    rw [if_neg (by simp only [List.length_ofFn]; omega), if_neg (by simp)]
    congr 1
    unfold asLists
    rw [List.map_ofFn]
    congr 1
    funext i
    obtain ⟨f, hf⟩ := fin_fun_ext (q i) (q i ⟨0, htpos⟩ ⟨0, hlpos⟩)
    simp only [Function.comp_apply]
    rw [show (fun c : Fin (targets.length * levels.length) => q i c.divNat c.modNat) = (fun c => f c.val)
      from funext (fun c => (hf c).symm)]
    have hcomm : List.ofFn (fun c : Fin (targets.length * levels.length) => f c.val)
        = List.ofFn (fun c : Fin (levels.length * targets.length) => f c.val) := by
      rw [Nat.mul_comm]
    rw [hcomm, chunks_ofFn, swap_ofFn]
    congr 1
    funext j
    congr 1
    funext l
    exact hf (pick j l)
  · intro i j l
    refine ⟨(pick j l).divNat, (pick j l).modNat, ?_, rfl⟩
    simp only [Fin.coe_divNat, Fin.coe_modNat, pick]
    rw [Nat.mul_comm]
    exact Nat.div_add_mod _ _

theorem asLists_inj {α : Type} {n t k : Nat} {q r : Fin n → Fin t → Fin k → α} (h : asLists q = asLists r) :
    q = r := by
  unfold asLists at h
  have h1 := List.ofFn_injective h
  funext i j l
  have h2 := List.ofFn_injective (congrFun h1 i)
  have h3 := List.ofFn_injective (congrFun h2 j)
  exact congrFun h3 l

/-- **C10 (b).** The conversion is correct for all contents exactly when there is a single target or a
single level. -/
theorem C10_correct_iff {L Q : Type} [DecidableEq Q] {n : Nat} (targets : List L) (levels : List Q)
    (hn : 0 < n) (ht : targets ≠ []) (hl : levels ≠ []) (hnd : levels.Nodup) :
    (∀ q : Fin n → Fin targets.length → Fin levels.length → Nat,
      (toDf targets levels q).bind qrfToNumpy = .ok (asLists q))
      ↔ targets.length = 1 ∨ levels.length = 1 := by
  have hlpos : 0 < levels.length := List.length_pos_iff.2 hl
  have htpos : 0 < targets.length := List.length_pos_iff.2 ht
  constructor
  · intro hall
    by_contra hc
    obtain ⟨r, hr, hspec⟩ := C10_qrf_layout targets levels
      (fun (_ : Fin n) j l => j.val * levels.length + l.val) hn ht hl hnd
    rw [hall] at hr
    have hqr := asLists_inj (Except.ok.inj hr)
    obtain ⟨j', l', h1, h2⟩ := hspec ⟨0, hn⟩ ⟨0, htpos⟩ ⟨1, by omega⟩
    rw [← hqr] at h2
    simp only at h1 h2
    omega
  · intro h1 q
    obtain ⟨r, hr, hspec⟩ := C10_qrf_layout targets levels q hn ht hl hnd
    rw [hr]
    congr 2
    funext i j l
    obtain ⟨j', l', e1, e2⟩ := hspec i j l
    rw [e2]
    have hj := j.2; have hj' := j'.2; have hl' := l'.2; have hl2 := l.2
    rcases h1 with h1 | h1
    · have a1 : j'.val = 0 := by omega
      have a2 : j.val = 0 := by omega
      have a3 : l'.val = l.val := by
        rw [a1, a2, h1] at e1; omega
      rw [show j' = j from Fin.ext (by omega), show l' = l from Fin.ext a3]
    · have a1 : l'.val = 0 := by omega
      have a2 : l.val = 0 := by omega
      have a3 : j'.val = j.val := by
        rw [a1, a2, h1] at e1; omega
      rw [show j' = j from Fin.ext a3, show l' = l from Fin.ext (by omega)]

/-- **C76.** Point predictions of the quantile forest: for `n` rows and `t` targets the labelled frame is
produced exactly when `t ≠ 1` or `n = 1`; with a single target any prediction on more than one row raises
`ValueError`. -/
theorem C76_qrf_single_target (n t : Nat) :
    (qrfPointFrameShape n t = .ok (n, t) ↔ (t ≠ 1 ∨ n = 1)) ∧
    (t = 1 → n ≠ 1 → qrfPointFrameShape n t = .error .valueError) := by
  have key : atleast2d (squeezeShape [n, 1, t]) = [n, t] ↔ (t ≠ 1 ∨ n = 1) := by
    by_cases hn : n = 1 <;> by_cases ht : t = 1
    · subst hn; subst ht; simp [squeezeShape, atleast2d]
    · subst hn; simp [squeezeShape, atleast2d, ht]
    · subst ht; simp [squeezeShape, atleast2d, hn]
    · simp [squeezeShape, atleast2d, hn, ht]
  unfold qrfPointFrameShape
  constructor
  · rw [← key]; split <;> simp_all
  · intro h1 h2
    rw [if_neg]
    rw [key]; simp [h1, h2]

/-! ### Concrete instances -/

def exQ : Fin 1 → Fin 2 → Fin 3 → Nat := fun _ j l => 10 * j.val + l.val

example : (toDf ["a", "b"] [1, 5, 9] exQ).bind toNumpy = .ok [[[0, 1, 2], [10, 11, 12]]] := by decide +kernel
example : (toDf ["a", "b"] [1, 5, 9] exQ).bind qrfToNumpy = .ok [[[0, 2, 11], [1, 10, 12]]] := by decide +kernel
example : qrfPointFrameShape 5 1 = .error .valueError := by decide
example : qrfPointFrameShape 5 3 = .ok (5, 3) := by decide

end PyF.Reshape
