import Verif.Utils.Lemmas

/-! C162 round trip between arrays and frames, C163 frames whose columns are not the full product of the stored levels. -/

namespace PyF.Utils
open PyF

set_option linter.unusedSectionVars false
variable {O I : Type} [DecidableEq O] [DecidableEq I]

/-- Two arrays are equal: same sizes, same entries. -/
def Tensor.Same (a b : Tensor) : Prop :=
  a.d0 = b.d0 ∧ a.d1 = b.d1 ∧ a.d2 = b.d2 ∧ ∀ r p q, r < a.d0 → p < a.d1 → q < a.d2 → a.val r p q = b.val r p q

/-- C162: with as many distinct labels as slices the frame is built; it has one column per pair of labels, the second index outside, and the
column `(second[q], first[p])` holds `x[:, p, q]`. -/
theorem C162_labels (x : Tensor) (first : List I) (second : List O) (h1 : first.length = x.d1) (h2 : second.length = x.d2)
    (hn2 : second.Nodup) (p2 : 0 < x.d2) :
    ∃ f, fromTensor x x.d0 first second = .ok f ∧ f.n = x.d0 ∧ f.cols.length = x.d2 * x.d1 ∧ f.lev0 = x.d2 ∧ f.lev1 = first.dedup.length ∧
      ∀ (q p : Nat) (s : O) (l : I), second[q]? = some s → first[p]? = some l →
        f.cols[q * x.d1 + p]? = some (s, l) ∧ ∀ r, f.val r (q * x.d1 + p) = x.val r p q := by
  have hlen : (slices x.d2 second).length = x.d2 := by rw [slices_length_of_nodup _ _ hn2, h2, min_self]
  have hne : slices x.d2 second ≠ [] := by intro h; rw [h] at hlen; simp at hlen; omega
  unfold fromTensor
  simp only [if_neg hne]
  rw [if_neg (by simp [h1])]
  refine ⟨_, rfl, rfl, ?_, hlen, rfl, ?_⟩
  · simp only
    rw [flat_length _ _ x.d1 (by simp [h1]), hlen]
  · intro q p s l hs hl
    have hq : q < x.d2 := by
      have := (List.getElem?_eq_some_iff.mp hs).1; omega
    have hp : p < x.d1 := by
      have := (List.getElem?_eq_some_iff.mp hl).1; omega
    have hg := slices_get_of_nodup x.d2 second hn2 q hq s hs
    constructor
    · simp only
      rw [flat_get _ _ x.d1 (by simp [h1]) q p hp, hg]
      simp [hl]
    · intro r
      simp only
      have e1 : (q * x.d1 + p) % x.d1 = p := by rw [Nat.add_comm, Nat.add_mul_mod_self_right, Nat.mod_eq_of_lt hp]
      have e2 : (q * x.d1 + p) / x.d1 = q := by
        rw [Nat.add_comm, Nat.add_mul_div_right _ _ (by omega), Nat.div_eq_of_lt hp, Nat.zero_add]
      rw [e1, e2, hg]; rfl

/-- Division of a position in three digits. -/
theorem digits (r p q b c : Nat) (hp : p < b) (hq : q < c) :
    ((r * b + p) * c + q) / (b * c) = r ∧ ((r * b + p) * c + q) % (b * c) = p * c + q := by
  have hlt : p * c + q < b * c := by nlinarith
  have he : (r * b + p) * c + q = (p * c + q) + r * (b * c) := by ring
  rw [he]
  constructor
  · rw [Nat.add_mul_div_right _ _ (by omega), Nat.div_eq_of_lt hlt, Nat.zero_add]
  · rw [Nat.add_mul_mod_self_right, Nat.mod_eq_of_lt hlt]

/-- C163: a frame whose number of columns is the product of the stored level sizes gives one block per row, entry `(p, q)` of a block being
the column in position `p * lev1 + q`, whatever its labels are. -/
theorem C163_full (f : Frame O I) (h : f.cols.length = f.lev0 * f.lev1) (h0 : 0 < f.lev0) (h1 : 0 < f.lev1) :
    (∃ t, toTensor f true = .ok t ∧ t.Same ⟨f.n, f.lev0, f.lev1, fun r p q => f.val r (p * f.lev1 + q)⟩) ∧
    ∃ t, toTensor f false = .ok t ∧ t.Same ⟨f.n, f.lev1, f.lev0, fun r q p => f.val r (p * f.lev1 + q)⟩ := by
  have hb : f.lev0 * f.lev1 ≠ 0 := by positivity
  have hok : ∃ t, reshape f = .ok t ∧ t.Same ⟨f.n, f.lev0, f.lev1, fun r p q => f.val r (p * f.lev1 + q)⟩ := by
    unfold reshape
    simp only [if_neg hb, h, Nat.mul_mod_left, ne_eq, not_true_eq_false, if_false]
    refine ⟨_, rfl, ?_, rfl, rfl, ?_⟩
    · exact Nat.mul_div_cancel _ (by omega)
    · intro r p q _ hp hq
      simp only at hp hq ⊢
      obtain ⟨e1, e2⟩ := digits r p q f.lev0 f.lev1 hp hq
      rw [e1, e2]
  obtain ⟨t, ht, s0, s1, s2, s3⟩ := hok
  constructor
  · exact ⟨t, by unfold toTensor; rw [ht]; rfl, s0, s1, s2, s3⟩
  · exact ⟨swap t, by unfold toTensor; rw [ht]; rfl, s0, s2, s1, fun r p q hr hp hq => s3 r q p hr hq hp⟩

/-- C162: with distinct labels `zero_first=False` gives the array back; the default gives it with the last two axes exchanged. -/
theorem C162_round_trip (x : Tensor) (first : List I) (second : List O) (h1 : first.length = x.d1) (h2 : second.length = x.d2)
    (hn1 : first.Nodup) (hn2 : second.Nodup) (p1 : 0 < x.d1) (p2 : 0 < x.d2) :
    ∃ f, fromTensor x x.d0 first second = .ok f ∧ (∃ t, toTensor f false = .ok t ∧ t.Same x) ∧
      ∃ t, toTensor f true = .ok t ∧ t.Same ⟨x.d0, x.d2, x.d1, fun r q p => x.val r p q⟩ := by
  obtain ⟨f, hf, hn, hl, hl0, hl1, hv⟩ := C162_labels x first second h1 h2 hn2 p2
  rw [hn1.dedup, h1] at hl1
  obtain ⟨⟨t, ht, s0, s1, s2, s3⟩, t', ht', s0', s1', s2', s3'⟩ := C163_full f (by rw [hl, hl0, hl1]) (by omega) (by omega)
  simp only at s0 s1 s2 s3 s0' s1' s2' s3'
  have key : ∀ r p q, p < x.d1 → q < x.d2 → f.val r (q * f.lev1 + p) = x.val r p q := by
    intro r p q hp hq
    rw [hl1]
    exact (hv q p _ _ (List.getElem?_eq_getElem (by omega)) (List.getElem?_eq_getElem (by omega))).2 r
  refine ⟨f, hf, ⟨t', ht', by omega, by omega, by omega, ?_⟩, t, ht, by simp only; omega, by simp only; omega, by simp only; omega, ?_⟩
  · intro r p q hr hp hq
    rw [s3' r p q hr hp hq]
    exact key r p q (by omega) (by omega)
  · intro r q p hr hq hp
    rw [s3 r q p hr hq hp]
    exact key r p q (by omega) (by omega)

/-- C162: the default is the identity exactly for arrays that are symmetric in the last two axes. -/
theorem C162_default_identity_iff (x : Tensor) (first : List I) (second : List O) (h1 : first.length = x.d1) (h2 : second.length = x.d2)
    (hn1 : first.Nodup) (hn2 : second.Nodup) (p1 : 0 < x.d1) (p2 : 0 < x.d2) :
    (∃ f t, fromTensor x x.d0 first second = .ok f ∧ toTensor f true = .ok t ∧ t.Same x) ↔
      x.d1 = x.d2 ∧ ∀ r p q, r < x.d0 → p < x.d1 → q < x.d1 → x.val r p q = x.val r q p := by
  obtain ⟨f, hf, _, t, ht, s0, s1, s2, s3⟩ := C162_round_trip x first second h1 h2 hn1 hn2 p1 p2
  simp only at s0 s1 s2 s3
  constructor
  · rintro ⟨f', t', hf', ht', u0, u1, u2, u3⟩
    rw [hf] at hf'
    cases hf'
    rw [ht] at ht'
    cases ht'
    refine ⟨by omega, ?_⟩
    intro r p q hr hp hq
    rw [← u3 r p q (by omega) (by omega) (by omega), s3 r p q (by omega) (by omega) (by omega)]
  · rintro ⟨e, hs⟩
    refine ⟨f, t, hf, ht, s0, by omega, by omega, ?_⟩
    intro r p q hr hp hq
    rw [s3 r p q hr hp hq]
    exact hs r q p (by omega) (by omega) (by omega)

/-- C162: a label of the second index that occurs several times keeps only the last of its slices, and labels or slices beyond the shorter of
the two are left out. -/
theorem C162_repeated (x : Tensor) (first : List I) (second : List O) (f : Frame O I) (hf : fromTensor x x.d0 first second = .ok f)
    (s : O) (l : I) (c : Nat) (hc : f.cols[c]? = some (s, l)) :
    ∃ (i p : Nat), i < x.d2 ∧ second[i]? = some s ∧ (∀ (j : Nat), i < j → j < x.d2 → second[j]? ≠ some s) ∧ first[p]? = some l ∧
      ∀ r, f.val r c = x.val r p i := by
  unfold fromTensor at hf
  simp only at hf
  split at hf
  · cases hf
  · split at hf
    · cases hf
    · rename_i hne hlen
      have h1 : first.length = x.d1 := by by_contra h; exact hlen (Or.inr h)
      cases hf
      simp only at hc ⊢
      have hclt := (List.getElem?_eq_some_iff.mp hc).1
      have hpos : 0 < x.d1 := by
        by_contra h0
        rw [flat_length _ _ x.d1 (by simp [h1])] at hclt
        have : x.d1 = 0 := by omega
        rw [this] at hclt
        omega
      have hp := Nat.mod_lt c hpos
      have hce : c / x.d1 * x.d1 + c % x.d1 = c := by rw [Nat.mul_comm]; exact Nat.div_add_mod c x.d1
      rw [← hce, flat_get _ _ x.d1 (by simp [h1]) _ _ hp] at hc
      cases hg : (slices x.d2 second)[c / x.d1]? with
      | none => rw [hg] at hc; cases hc
      | some e =>
        rw [hg] at hc
        simp only [Option.bind_some, List.getElem?_map, Option.map_eq_some_iff, Prod.mk.injEq] at hc
        obtain ⟨l', hl', rfl, rfl⟩ := hc
        have hmem : (e.1, e.2) ∈ slices x.d2 second := List.mem_of_getElem? hg
        rw [mem_slices] at hmem
        obtain ⟨m1, m2, m3⟩ := hmem
        refine ⟨e.2, c % x.d1, m1, m2, m3, hl', ?_⟩
        intro r
        rfl

/-- C163: the conversion fails exactly if a level is empty or the number of entries is no multiple of the product of the stored level sizes,
and otherwise its number of rows is that of the frame exactly if the columns are as many as that product. -/
theorem C163_rows (f : Frame O I) (z : Bool) (hn : 0 < f.n) (h0 : 0 < f.lev0) (h1 : 0 < f.lev1) :
    (toTensor f z = .error .valueError ↔ ¬ f.lev0 * f.lev1 ∣ f.n * f.cols.length) ∧
    ∀ t, toTensor f z = .ok t → t.d0 * (f.lev0 * f.lev1) = f.n * f.cols.length ∧ (t.d0 = f.n ↔ f.cols.length = f.lev0 * f.lev1) := by
  have hb : f.lev0 * f.lev1 ≠ 0 := by positivity
  unfold toTensor reshape
  simp only [if_neg hb]
  by_cases hd : f.lev0 * f.lev1 ∣ f.n * f.cols.length
  · have hm := Nat.mod_eq_zero_of_dvd hd
    simp only [hm, ne_eq, not_true_eq_false, if_false]
    refine ⟨by simp [hd], ?_⟩
    intro t ht
    have hd0 : t.d0 = f.n * f.cols.length / (f.lev0 * f.lev1) := by
      cases z <;> (cases ht; rfl)
    have hmul : t.d0 * (f.lev0 * f.lev1) = f.n * f.cols.length := by rw [hd0]; exact Nat.div_mul_cancel hd
    refine ⟨hmul, ?_, ?_⟩
    · intro h
      rw [h] at hmul
      exact (Nat.eq_of_mul_eq_mul_left hn hmul).symm
    · intro h
      rw [h] at hmul
      exact Nat.eq_of_mul_eq_mul_right (by omega) hmul
  · have hm : f.n * f.cols.length % (f.lev0 * f.lev1) ≠ 0 := fun h => hd (Nat.dvd_of_mod_eq_zero h)
    simp only [if_pos hm]
    exact ⟨by simp [hd], fun t ht => by cases ht⟩

/-- C163: after selecting fewer columns the conversion fails or has fewer rows than the frame; it never gives the selected columns row by row. -/
theorem C163_selection (f : Frame O I) (ps : List Nat) (z : Bool) (hn : 0 < f.n) (h0 : 0 < f.lev0) (h1 : 0 < f.lev1)
    (h : f.cols.length = f.lev0 * f.lev1) (hps : ∀ p ∈ ps, p < f.cols.length) (hlt : ps.length < f.cols.length) :
    toTensor (select f ps) z = .error .valueError ∨ ∃ t, toTensor (select f ps) z = .ok t ∧ t.d0 < f.n := by
  have hw : (select f ps).cols.length = ps.length := by
    unfold select
    simp only
    clear hlt
    induction ps with
    | nil => rfl
    | cons p ps ih =>
      have hp : p < f.cols.length := hps p (by simp)
      rw [List.filterMap_cons, List.getElem?_eq_getElem hp, List.length_cons, List.length_cons, ih (fun q hq => hps q (by simp [hq]))]
  obtain ⟨hr1, hr2⟩ := C163_rows (select f ps) z hn h0 h1
  by_cases hd : (select f ps).lev0 * (select f ps).lev1 ∣ (select f ps).n * (select f ps).cols.length
  · right
    cases ht : toTensor (select f ps) z with
    | error e =>
      have hb : f.lev0 * f.lev1 ≠ 0 := by positivity
      exfalso
      unfold toTensor reshape at ht
      simp only [show (select f ps).lev0 = f.lev0 from rfl, show (select f ps).lev1 = f.lev1 from rfl, if_neg hb] at ht
      have hm := Nat.mod_eq_zero_of_dvd hd
      simp only [show (select f ps).lev0 = f.lev0 from rfl, show (select f ps).lev1 = f.lev1 from rfl] at hm
      simp only [hm, ne_eq, not_true_eq_false, if_false] at ht
      cases ht
    | ok t =>
      refine ⟨t, rfl, ?_⟩
      have := (hr2 t ht).1
      rw [hw] at this
      simp only [show (select f ps).lev0 = f.lev0 from rfl, show (select f ps).lev1 = f.lev1 from rfl, show (select f ps).n = f.n from rfl] at this
      rw [← h] at this
      by_contra hge
      have h3 : f.n * f.cols.length ≤ t.d0 * f.cols.length := Nat.mul_le_mul_right _ (by omega)
      have h4 : f.n * ps.length < f.n * f.cols.length := Nat.mul_lt_mul_of_pos_left hlt hn
      omega
  · exact Or.inl (hr1.mpr hd)

/-- C163: with repeated labels in the first index the conversion fails or has more rows than the array had. -/
theorem C163_duplicates (x : Tensor) (first : List I) (second : List O) (h1 : first.length = x.d1) (h2 : second.length = x.d2)
    (hn1 : ¬ first.Nodup) (hn2 : second.Nodup) (p0 : 0 < x.d0) (p2 : 0 < x.d2) (z : Bool) :
    ∃ f, fromTensor x x.d0 first second = .ok f ∧ (toTensor f z = .error .valueError ∨ ∃ t, toTensor f z = .ok t ∧ x.d0 < t.d0) := by
  obtain ⟨f, hf, hn, hl, hl0, hl1, _⟩ := C162_labels x first second h1 h2 hn2 p2
  have hlt : first.dedup.length < first.length := by
    refine lt_of_le_of_ne (List.dedup_sublist first).length_le ?_
    intro h
    have := (List.dedup_sublist first).eq_of_length h
    exact hn1 (List.dedup_eq_self.mp this)
  have hpos : 0 < first.dedup.length := by
    by_contra h0
    have : first.dedup = [] := List.length_eq_zero_iff.mp (by omega)
    rw [List.dedup_eq_nil] at this
    subst this
    exact hn1 List.nodup_nil
  refine ⟨f, hf, ?_⟩
  obtain ⟨hr1, hr2⟩ := C163_rows f z (by omega) (by omega) (by omega)
  by_cases hd : f.lev0 * f.lev1 ∣ f.n * f.cols.length
  · right
    cases ht : toTensor f z with
    | error e =>
      exfalso
      have hb : f.lev0 * f.lev1 ≠ 0 := by
        have : 0 < f.lev0 * f.lev1 := Nat.mul_pos (by omega) (by omega)
        omega
      unfold toTensor reshape at ht
      have hm := Nat.mod_eq_zero_of_dvd hd
      simp only [if_neg hb, hm, ne_eq, not_true_eq_false, if_false] at ht
      cases ht
    | ok t =>
      refine ⟨t, rfl, ?_⟩
      have h3 := (hr2 t ht).1
      rw [hl, hl0, hl1, hn] at h3
      have h3' : t.d0 * first.dedup.length = x.d0 * x.d1 := by
        have : x.d2 * (t.d0 * first.dedup.length) = x.d2 * (x.d0 * x.d1) := by nlinarith
        exact Nat.eq_of_mul_eq_mul_left p2 this
      by_contra hge
      have h4 : t.d0 * first.dedup.length ≤ x.d0 * first.dedup.length := Nat.mul_le_mul_right _ (by omega)
      have h5 : x.d0 * first.dedup.length < x.d0 * x.d1 := Nat.mul_lt_mul_of_pos_left (by omega) p0
      omega
  · exact Or.inl (hr1.mpr hd)

end PyF.Utils
