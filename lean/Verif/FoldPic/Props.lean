import Verif.FoldPic.Model
import Verif.Quantile.Props

/-! C328: the picture of a fold. -/

namespace PyF.FoldPic
open PyF PyF.Quantile

theorem every_eq {α : Type} (k : Nat) (hk : 0 < k) (l : List α) :
    (every k l).length = (l.length + (k - 1)) / k ∧ ∀ i < (l.length + (k - 1)) / k, (every k l)[i]? = l[i * k]? := by
  have hlt : ∀ i ∈ List.range ((l.length + (k - 1)) / k), i * k < l.length := by
    intro i hi
    have h1 := List.mem_range.1 hi
    have h2 : (i + 1) * k ≤ l.length + (k - 1) := (Nat.le_div_iff_mul_le hk).1 h1
    rw [Nat.add_mul, Nat.one_mul] at h2
    omega
  have key : ∀ L : List Nat, (∀ i ∈ L, i * k < l.length) → (L.filterMap (fun i => l[i * k]?)).map some = L.map (fun i => l[i * k]?) := by
    intro L
    induction L with
    | nil => intro _; rfl
    | cons a L ih =>
      intro h
      have ha := h a List.mem_cons_self
      rw [List.filterMap_cons_some (f := fun i => l[i * k]?) (List.getElem?_eq_getElem ha), List.map_cons, List.map_cons, ih (fun i hi => h i (List.mem_cons_of_mem _ hi)),
        List.getElem?_eq_getElem ha]
  have hkey := key _ hlt
  have hlen : (every k l).length = (l.length + (k - 1)) / k := by
    have := congrArg List.length hkey
    rw [List.length_map, List.length_map, List.length_range] at this
    exact this
  refine ⟨hlen, fun i hi => ?_⟩
  have h1 := congrArg (fun L => L[i]?) hkey
  simp only [List.getElem?_map, List.getElem?_range hi, Option.map_some] at h1
  have h2 : i < (every k l).length := by omega
  change Option.map some (every k l)[i]? = _ at h1
  rw [List.getElem?_eq_getElem h2] at h1 ⊢
  simpa using h1

theorem picture_ok {tr te : List Bool} (hl : tr.length = te.length) {k : Nat} (hs : step tr te = some k) (hk : 0 < k) :
    ∃ pic, picture tr te = some (.ok pic) ∧ pic.length = (tr.length + (k - 1)) / k ∧
      ∀ i < (tr.length + (k - 1)) / k, ∃ a b, tr[i * k]? = some a ∧ te[i * k]? = some b ∧ pic[i]? = some (glyph a b) := by
  obtain ⟨h1, h2⟩ := every_eq k hk tr
  obtain ⟨h3, h4⟩ := every_eq k hk te
  rw [← hl] at h3 h4
  refine ⟨List.zipWith glyph (every k tr) (every k te), ?_, ?_, ?_⟩
  · unfold picture
    rw [hs, Option.map_some, if_neg (by omega)]
  · rw [List.length_zipWith, h1, h3, Nat.min_self]
  · intro i hi
    have ha : i < (every k tr).length := by omega
    have hb : i < (every k te).length := by omega
    refine ⟨(every k tr)[i], (every k te)[i], ?_, ?_, ?_⟩
    · rw [← h2 i hi, List.getElem?_eq_getElem ha]
    · rw [← h4 i hi, List.getElem?_eq_getElem hb]
    · rw [List.getElem?_zipWith, List.getElem?_eq_getElem ha, List.getElem?_eq_getElem hb]

/-- C328 (glyphs): skipped, training and test rows are told apart; a row in both masks leaves no trace. -/
theorem C328_glyph (a b : Bool) : (glyph a b = "x" ↔ a = false ∧ b = false) ∧ (glyph a b = "-" ↔ a = true ∧ b = false) ∧ (glyph a b = "|" ↔ a = false ∧ b = true) := by
  cases a <;> cases b <;> decide

/-- C328 (no row skipped): refused with ValueError exactly below 100 rows; else the picture has 100 to 199 glyphs, the `i`-th for row `i` times a hundredth of the rows. -/
theorem C328_no_skipped (tr te : List Bool) (hl : tr.length = te.length) (hb : ∀ x ∈ buffers tr te, x = false) :
    (tr.length < 100 ↔ picture tr te = some (.error .valueError)) ∧
    (100 ≤ tr.length → ∃ pic, picture tr te = some (.ok pic) ∧ 100 ≤ pic.length ∧ pic.length ≤ 199 ∧
      ∀ i < pic.length, ∃ a b, tr[i * (tr.length / 100)]? = some a ∧ te[i * (tr.length / 100)]? = some b ∧ pic[i]? = some (glyph a b)) := by
  have hs : step tr te = some (tr.length / 100) := by
    unfold step
    rw [if_neg]
    rw [List.any_eq_true]
    rintro ⟨x, hx, h⟩
    rw [hb x hx] at h
    cases h
  have hmain : 100 ≤ tr.length → ∃ pic, picture tr te = some (.ok pic) ∧ 100 ≤ pic.length ∧ pic.length ≤ 199 ∧
      ∀ i < pic.length, ∃ a b, tr[i * (tr.length / 100)]? = some a ∧ te[i * (tr.length / 100)]? = some b ∧ pic[i]? = some (glyph a b) := by
    intro hn
    have hk : 0 < tr.length / 100 := Nat.div_pos hn (by decide)
    obtain ⟨pic, h1, h2, h3⟩ := picture_ok hl hs hk
    have hq := Nat.div_add_mod tr.length 100
    have hr := Nat.mod_lt tr.length (show 0 < 100 by decide)
    refine ⟨pic, h1, ?_, ?_, fun i hi => h3 i (h2 ▸ hi)⟩
    · rw [h2, Nat.le_div_iff_mul_le hk]
      omega
    · rw [h2]
      have : (tr.length + (tr.length / 100 - 1)) / (tr.length / 100) < 200 := by
        rw [Nat.div_lt_iff_lt_mul hk]
        omega
      omega
  refine ⟨⟨fun hn => ?_, fun h => ?_⟩, hmain⟩
  · unfold picture
    rw [hs, Option.map_some, if_pos (Nat.div_eq_of_lt hn)]
  · by_contra hc
    obtain ⟨pic, h1, -⟩ := hmain (by omega)
    rw [h1] at h
    cases h

theorem diffs_pos : ∀ l : List Nat, l.Pairwise (· < ·) → ∀ d ∈ diffs l, 1 ≤ d := by
  intro l
  induction l with
  | nil => intro _ d hd; cases hd
  | cons x l ih =>
    intro hp d hd
    cases l with
    | nil => cases hd
    | cons y l =>
      rw [diffs, List.tail_cons, List.zipWith_cons_cons] at hd
      rcases List.mem_cons.1 hd with h | h
      · have := (List.pairwise_cons.1 hp).1 y List.mem_cons_self
        omega
      · exact ih (List.pairwise_cons.1 hp).2 d h

/-- C328 (rows skipped): if the mask of the skipped rows changes at least twice, the picture is never refused; the distance of the drawn rows lies between the shortest and the longest
distance of two neighbouring changes, and the `i`-th glyph is that of row `i` times this distance. -/
theorem C328_skipped (tr te : List Bool) (hl : tr.length = te.length) (hb : ∃ x ∈ buffers tr te, x = true) (hc : 2 ≤ (changes (buffers tr te)).length) :
    ∃ (k : Nat) (pic : List String), picture tr te = some (.ok pic) ∧ 1 ≤ k ∧ (∃ d ∈ diffs (changes (buffers tr te)), d ≤ k) ∧ (∃ d ∈ diffs (changes (buffers tr te)), k ≤ d) ∧
      pic.length = (tr.length + (k - 1)) / k ∧ ∀ i < pic.length, ∃ a b, tr[i * k]? = some a ∧ te[i * k]? = some b ∧ pic[i]? = some (glyph a b) := by
  set D := diffs (changes (buffers tr te)) with hD
  have hDne : D ≠ [] := by
    intro h
    have h1 := congrArg List.length h
    rw [hD, diffs, List.length_zipWith, List.length_tail, List.length_nil] at h1
    omega
  have hpw : (changes (buffers tr te)).Pairwise (· < ·) := List.pairwise_lt_range.filter _
  have hpos := diffs_pos _ hpw
  set q := quantileVal (D.map (fun (n : ℕ) => (n : ℚ))) (1 / 10) with hq
  have hne : D.map (fun (n : ℕ) => (n : ℚ)) ≠ [] := fun h => hDne (List.map_eq_nil_iff.1 h)
  obtain ⟨⟨m1, m2⟩, ⟨M1, M2⟩⟩ := C05_extremes _ hne
  have hlo := C05_monotone (D.map (fun (n : ℕ) => (n : ℚ))) 0 (1 / 10) hne le_rfl (by norm_num) (by norm_num)
  have hhi := C05_monotone (D.map (fun (n : ℕ) => (n : ℚ))) (1 / 10) 1 hne (by norm_num) (by norm_num) le_rfl
  obtain ⟨dm, hdm, hdm'⟩ := List.mem_map.1 m1
  obtain ⟨dM, hdM, hdM'⟩ := List.mem_map.1 M1
  rw [← hdm', ← hq] at hlo
  rw [← hdM', ← hq] at hhi
  have hs : step tr te = some ⌊q⌋.toNat := by
    unfold step
    rw [if_pos (by obtain ⟨x, hx, h⟩ := hb; exact List.any_eq_true.2 ⟨x, hx, h⟩), if_neg hDne]
  have hf1 : (dm : ℤ) ≤ ⌊q⌋ := Int.le_floor.2 (by exact_mod_cast hlo)
  have hf2 : ⌊q⌋ ≤ (dM : ℤ) := by
    have : (⌊q⌋ : ℚ) ≤ dM := (Int.floor_le q).trans hhi
    exact_mod_cast this
  have hd1 := hpos dm hdm
  obtain ⟨pic, h1, h2, h3⟩ := picture_ok hl hs (by omega)
  exact ⟨⌊q⌋.toNat, pic, h1, by omega, ⟨dm, hdm, by omega⟩, ⟨dM, hdM, by omega⟩, h2, fun i hi => h3 i (h2 ▸ hi)⟩

end PyF.FoldPic
