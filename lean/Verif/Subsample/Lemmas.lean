import Verif.Subsample.Model
import Verif.Subsample.Spec
import Mathlib.Algebra.BigOperators.Group.List.Basic
import Mathlib.Algebra.Order.BigOperators.Group.List
import Mathlib.Data.List.Perm.Subperm
import Mathlib.Data.List.Count
import Mathlib.Data.List.Induction
import Mathlib.Tactic.Linarith

namespace PyF.Subsample
open PyF Spec

section
variable {ι X Y G : Type} [LinearOrder ι]

theorem npUnique_perm (l : List Nat) : (npUnique l).Perm l.dedup := List.perm_insertionSort _ _

theorem npUnique_nodup (l : List Nat) : (npUnique l).Nodup :=
  (npUnique_perm l).nodup_iff.2 (List.nodup_dedup l)

theorem mem_npUnique {l : List Nat} {a : Nat} : a ∈ npUnique l ↔ a ∈ l := by
  rw [(npUnique_perm l).mem_iff, List.mem_dedup]

theorem npUnique_length_of_nodup {l : List Nat} (h : l.Nodup) : (npUnique l).length = l.length := by
  rw [(npUnique_perm l).length_eq, h.dedup]

/-- On duplicate-free positions within the frame, `orderRows` succeeds and selects the rows at a
stable, time-sorted rearrangement of the positions. -/
theorem orderRows_spec (idx : List ι) (x : List X) (y : List Y) (pos : List Nat)
    (hnd : pos.Nodup) (hi : ∀ p ∈ pos, p < idx.length) (hx : ∀ p ∈ pos, p < x.length)
    (hy : ∀ p ∈ pos, p < y.length) :
    ∃ pos2 xs ys, orderRows idx x y pos = .ok (xs, ys) ∧ RowsAt pos2 x xs ∧ RowsAt pos2 y ys ∧
      InTimeOrder idx pos2 ∧ StableReorder idx pos pos2 := by
  by_cases h0 : pos.length = 0
  · have : pos = [] := List.length_eq_zero_iff.1 h0
    subst this
    exact ⟨[], [], [], by simp [orderRows], by simp [RowsAt], by simp [RowsAt],
      by simp [InTimeOrder], by simp [StableReorder]⟩
  · obtain ⟨keys, hk, hkl⟩ := takeRows_ok_of_lt idx pos hi
    have hk' := (takeRows_ok_iff idx pos keys).1 hk
    set z := keys.zip pos with hz
    let le : ι × Nat → ι × Nat → Prop := fun a b => a.1 ≤ b.1
    set zs := z.insertionSort (fun a b => a.1 ≤ b.1) with hzs
    have hperm : zs.Perm z := List.perm_insertionSort _ _
    have hzsnd : z.map Prod.snd = pos := by
      rw [hz]; exact List.map_snd_zip (by omega)
    have hmem : ∀ e ∈ z, idx[e.2]? = some e.1 := by
      intro e he
      rw [List.mem_iff_getElem] at he
      obtain ⟨i, hi', rfl⟩ := he
      have hil : i < keys.length := by
        rw [hz, List.length_zip] at hi'; omega
      have hip : i < pos.length := by omega
      have := congrArg (fun l => l[i]?) hk'
      simp only [List.getElem?_map, List.getElem?_eq_getElem hip, List.getElem?_eq_getElem hil,
        Option.map_some, Option.some.injEq] at this
      simp [hz, List.getElem_zip, this]
    have : IsTrans (ι × Nat) le := ⟨fun a b c h1 h2 => le_trans h1 h2⟩
    have : Std.Total le := ⟨fun a b => le_total a.1 b.1⟩
    have hsorted : zs.Pairwise le := List.pairwise_insertionSort le z
    let pos2 := zs.map Prod.snd
    have hp2 : pos2.Perm pos := by
      have := hperm.map Prod.snd
      rwa [hzsnd] at this
    obtain ⟨xs, hxs, -⟩ := takeRows_ok_of_lt x pos2 (fun p hp => hx p (hp2.mem_iff.1 hp))
    obtain ⟨ys, hys, -⟩ := takeRows_ok_of_lt y pos2 (fun p hp => hy p (hp2.mem_iff.1 hp))
    refine ⟨pos2, xs, ys, ?_, (takeRows_ok_iff _ _ _).1 hxs, (takeRows_ok_iff _ _ _).1 hys, ?_, hp2, ?_⟩
    · have hnu : ¬ ((npUnique pos).length < pos.length) := by
        rw [npUnique_length_of_nodup hnd]; omega
      unfold orderRows
      rw [if_neg h0]
      simp only [if_neg hnu, hk]
      change (match takeRows x pos2, takeRows y pos2 with
        | .ok xs, .ok ys => Except.ok (xs, ys)
        | .error e, _ => .error e
        | _, .error e => .error e) = _
      rw [hxs, hys]
    · unfold InTimeOrder
      rw [List.pairwise_map]
      refine hsorted.imp_of_mem ?_
      intro a b ha hb hab va vb hva hvb
      have h1 := hmem a (hperm.mem_iff.1 ha)
      have h2 := hmem b (hperm.mem_iff.1 hb)
      rw [h1] at hva; rw [h2] at hvb
      simp only [Option.some.injEq] at hva hvb
      subst hva; subst hvb
      exact hab
    · intro a b v hab hva hvb
      have h1 : [(v, a), (v, b)].Sublist z := by
        rw [← hzsnd] at hab
        obtain ⟨l, hl, hleq⟩ := List.sublist_map_iff.1 hab
        rcases l with _ | ⟨e1, _ | ⟨e2, _ | ⟨e3, l⟩⟩⟩ <;> simp at hleq
        have m1 := hmem e1 (hl.subset (by simp))
        have m2 := hmem e2 (hl.subset (by simp))
        obtain ⟨rfl, rfl⟩ := hleq
        rw [hva] at m1; rw [hvb] at m2
        simp only [Option.some.injEq] at m1 m2
        have e1' : e1 = (v, e1.2) := by rw [m1]
        have e2' : e2 = (v, e2.2) := by rw [m2]
        rw [← e1', ← e2']; exact hl
      have h2 : [(v, a), (v, b)].Sublist zs :=
        List.sublist_insertionSort (by simp) h1
      simpa [pos2] using h2.map Prod.snd

/-! ### the deficit loop -/

theorem foldl_max_ge (l : List Int) (a : Int) : a ≤ l.foldl max a := by
  induction l generalizing a with
  | nil => simp
  | cons b l ih => exact le_trans (le_max_left a b) (ih _)

theorem foldl_max_mem_ge (l : List Int) (a : Int) : ∀ b ∈ l, b ≤ l.foldl max a := by
  induction l generalizing a with
  | nil => simp
  | cons c l ih =>
    intro b hb
    rcases List.mem_cons.1 hb with rfl | hb
    · exact le_trans (le_max_right a b) (foldl_max_ge l _)
    · exact ih _ b hb

theorem foldl_max_eq (l : List Int) (a : Int) : l.foldl max a = a ∨ l.foldl max a ∈ l := by
  induction l generalizing a with
  | nil => simp
  | cons b l ih =>
    rcases ih (max a b) with h | h
    · rcases max_choice a b with h' | h'
      · left; simpa [h'] using h
      · right; rw [List.foldl_cons, h, h']; simp
    · right; exact List.mem_cons_of_mem _ h

theorem maxZ_ge {l : List Int} {b : Int} (h : b ∈ l) : b ≤ maxZ l := foldl_max_mem_ge l _ b h

theorem maxZ_mem {l : List Int} (h : l ≠ []) : maxZ l ∈ l := by
  rcases l with _ | ⟨a, l⟩
  · exact absurd rfl h
  · rcases foldl_max_eq (a :: l) a with h' | h'
    · show List.foldl max a (a :: l) ∈ a :: l
      rw [h']; simp
    · exact h'

theorem argmaxZ_lt {l : List Int} (h : l ≠ []) : argmaxZ l < l.length :=
  List.idxOf_lt_length_iff.2 (maxZ_mem h)

theorem getElem_argmaxZ {l : List Int} (h : l ≠ []) : l[argmaxZ l]'(argmaxZ_lt h) = maxZ l :=
  List.getElem_idxOf (argmaxZ_lt h)

theorem forall₂_le_getElem {a b : List Nat} (h : List.Forall₂ (· ≤ ·) a b) (i : Nat)
    (ha : i < a.length) (hb : i < b.length) : a[i] ≤ b[i] := by
  induction h generalizing i with
  | nil => simp at ha
  | cons h1 _ ih =>
    cases i with
    | zero => simpa using h1
    | succ i => simpa using ih i (by simpa using ha) (by simpa using hb)

theorem forall₂_le_of_getElem {a b : List Nat} (hl : a.length = b.length)
    (h : ∀ i (ha : i < a.length) (hb : i < b.length), a[i] ≤ b[i]) : List.Forall₂ (· ≤ ·) a b := by
  rw [List.forall₂_iff_get]
  exact ⟨hl, fun i h1 h2 => by simpa using h i h1 h2⟩

theorem exists_lt_of_sum_lt {a b : List Nat} (h : List.Forall₂ (· ≤ ·) a b) (hs : a.sum < b.sum) :
    ∃ i, ∃ (ha : i < a.length) (hb : i < b.length), a[i] < b[i] := by
  induction h with
  | nil => simp at hs
  | @cons x y l₁ l₂ h1 h2 ih =>
    by_cases hxy : x < y
    · exact ⟨0, by simp, by simp, by simpa using hxy⟩
    · have : l₁.sum < l₂.sum := by simp only [List.sum_cons] at hs; omega
      obtain ⟨i, ha, hb, hi⟩ := ih this
      exact ⟨i + 1, by simpa using ha, by simpa using hb, by simpa using hi⟩

theorem sum_modify_succ (l : List Nat) (j : Nat) (h : j < l.length) :
    (l.modify j (· + 1)).sum = l.sum + 1 := by
  induction l generalizing j with
  | nil => simp at h
  | cons a l ih =>
    cases j with
    | zero => simp; omega
    | succ j => simp [ih j (by simpa using h)]; omega

/-- While the strata have spare capacity for the whole deficit the loop never falls back; it ends with
an allocation between the capped draw and the available counts, larger by exactly the deficit. -/
theorem fillLoop_spec (counts : List Nat) (d : Nat) (alloc : List Nat)
    (hle : List.Forall₂ (· ≤ ·) alloc counts) (hs : alloc.sum + d ≤ counts.sum) :
    ∃ a', fillLoop counts d alloc = some a' ∧ List.Forall₂ (· ≤ ·) alloc a' ∧
      List.Forall₂ (· ≤ ·) a' counts ∧ a'.sum = alloc.sum + d := by
  induction d generalizing alloc with
  | zero => exact ⟨alloc, rfl, List.forall₂_refl _, hle, rfl⟩
  | succ d ih =>
    have hlen : alloc.length = counts.length := hle.length_eq
    obtain ⟨i, hia, hib, hi⟩ := exists_lt_of_sum_lt hle (by omega)
    have hspl : (spare counts alloc).length = alloc.length := by simp [spare, hlen]
    have hne : spare counts alloc ≠ [] := by
      intro h; rw [h] at hspl; simp at hspl; omega
    have hpos : 0 < maxZ (spare counts alloc) := by
      have hmem : ((counts[i] : Int) - (alloc[i] : Int)) ∈ spare counts alloc := by
        rw [List.mem_iff_getElem]
        exact ⟨i, by omega, by simp [spare]⟩
      have := maxZ_ge hmem
      omega
    set j := argmaxZ (spare counts alloc) with hj
    have hjl : j < alloc.length := by rw [← hspl]; exact argmaxZ_lt hne
    have hjc : j < counts.length := by omega
    have hjlt : alloc[j] < counts[j] := by
      have := getElem_argmaxZ hne
      have h2 : (spare counts alloc)[argmaxZ (spare counts alloc)]'(argmaxZ_lt hne)
          = (counts[j] : Int) - (alloc[j] : Int) := by
        simp only [spare, List.getElem_zipWith]; rfl
      rw [h2] at this
      omega
    have hle' : List.Forall₂ (· ≤ ·) (alloc.modify j (· + 1)) counts := by
      apply forall₂_le_of_getElem (by simp [hlen])
      intro k h1 h2
      rw [List.getElem_modify]
      have := forall₂_le_getElem hle k (by simpa using h1) h2
      split
      · next hkj => subst hkj; exact hjlt
      · exact this
    have hge' : List.Forall₂ (· ≤ ·) alloc (alloc.modify j (· + 1)) := by
      apply forall₂_le_of_getElem (by simp)
      intro k h1 h2
      rw [List.getElem_modify]
      split <;> simp
    have hsum := sum_modify_succ alloc j hjl
    obtain ⟨a', h1, h2, h3, h4⟩ := ih (alloc.modify j (· + 1)) hle' (by omega)
    refine ⟨a', ?_, ?_, h3, by omega⟩
    · show (if maxZ (spare counts alloc) = 0 then none else fillLoop counts d (alloc.modify j (· + 1))) = some a'
      rw [if_neg (by omega), h1]
    · have hl1 := hge'.length_eq
      have hl2 := h2.length_eq
      apply forall₂_le_of_getElem (by omega)
      intro k k1 k2
      exact le_trans (forall₂_le_getElem hge' k k1 (by omega)) (forall₂_le_getElem h2 k (by omega) k2)

theorem trimLoop_of_le (m f : Nat) (alloc : List Nat) (h : alloc.sum ≤ m) :
    trimLoop m f alloc = alloc := by
  cases f with
  | zero => rfl
  | succ f => rw [trimLoop, if_neg (by omega)]

/-! ### the selection loop -/

theorem mem_positionsOf {hours : List Nat} {h p : Nat} :
    p ∈ positionsOf hours h ↔ hours[p]? = some h := by
  unfold positionsOf
  rw [List.mem_filter, List.mem_range]
  constructor
  · rintro ⟨_, h2⟩; simpa using h2
  · intro h2
    refine ⟨?_, by simpa using h2⟩
    by_contra hc
    rw [List.getElem?_eq_none (by omega)] at h2
    cases h2

theorem positionsOf_nodup (hours : List Nat) (h : Nat) : (positionsOf hours h).Nodup :=
  List.nodup_range.filter _

theorem countP_range_getElem (hours : List Nat) (h : Nat) :
    (List.range hours.length).countP (fun i => hours[i]? == some h) = hours.count h := by
  induction hours using List.reverseRecOn with
  | nil => simp
  | append_singleton l a ih =>
    rw [List.length_append, List.length_singleton, List.range_succ, List.countP_append,
      List.count_append]
    congr 1
    · rw [← ih]
      apply List.countP_congr
      intro i hi
      rw [List.mem_range] at hi
      rw [List.getElem?_append_left hi]
    · simp [List.countP_cons, List.count_cons, beq_eq_decide]

theorem positionsOf_length (hours : List Nat) (h : Nat) :
    (positionsOf hours h).length = hours.count h := by
  unfold positionsOf
  rw [← List.countP_eq_length_filter, countP_range_getElem]

/-- What the selection loop picks. -/
theorem selectLoop_spec {R : Rng G} (hR : R.Lawful) (hours : List Nat) (L : List (Nat × Nat)) (g : G)
    (hnd : (L.map Prod.fst).Nodup) (hc : ∀ e ∈ L, e.2 ≤ hours.count e.1) :
    (selectLoop R hours g L).1.flatten.Nodup ∧
    (∀ p ∈ (selectLoop R hours g L).1.flatten, ∃ e ∈ L, hours[p]? = some e.1) ∧
    (∀ e ∈ L, (selectLoop R hours g L).1.flatten.countP (fun p => hours[p]? == some e.1) = e.2) ∧
    (selectLoop R hours g L).1.flatten.length = (L.map Prod.snd).sum := by
  induction L generalizing g with
  | nil => simp [selectLoop]
  | cons e L ih =>
    obtain ⟨h, c⟩ := e
    have hnd' : (L.map Prod.fst).Nodup := by simp at hnd; exact hnd.2
    have hnotin : ∀ e ∈ L, e.1 ≠ h := by
      intro e he heq
      simp only [List.map_cons, List.nodup_cons] at hnd
      exact hnd.1 (heq ▸ List.mem_map_of_mem he)
    have hc' : ∀ e ∈ L, e.2 ≤ hours.count e.1 := fun e he => hc e (List.mem_cons_of_mem _ he)
    have hch : c ≤ hours.count h := hc (h, c) List.mem_cons_self
    by_cases h0 : c = 0
    · subst h0
      obtain ⟨i1, i2, i3, i4⟩ := ih g hnd' hc'
      have hz : ((selectLoop R hours g L).1.flatten).countP (fun p => hours[p]? == some h) = 0 := by
        rw [List.countP_eq_zero]
        intro p hp
        obtain ⟨e, he, hpe⟩ := i2 p hp
        rw [hpe]
        simpa using hnotin e he
      simp only [selectLoop, if_true]
      refine ⟨i1, ?_, ?_, by simpa using i4⟩
      · intro p hp
        obtain ⟨e, he, hpe⟩ := i2 p hp
        exact ⟨e, List.mem_cons_of_mem _ he, hpe⟩
      · intro e he
        rcases List.mem_cons.1 he with rfl | he
        · exact hz
        · exact i3 e he
    · have hmin : min c (positionsOf hours h).length = c := by rw [positionsOf_length]; omega
      have hcl : c ≤ (positionsOf hours h).length := by rw [positionsOf_length]; exact hch
      set r := R.choice g (positionsOf hours h) c with hr
      have hrl : r.1.length = c := hR.choice_length _ _ _ hcl
      have hrs : r.1.Subperm (positionsOf hours h) := hR.choice_subperm _ _ _ hcl
      have hrm : ∀ p ∈ r.1, hours[p]? = some h := fun p hp => mem_positionsOf.1 (hrs.subset hp)
      have hrn : r.1.Nodup := by
        obtain ⟨l, hl1, hl2⟩ := hrs
        exact hl1.nodup_iff.1 ((positionsOf_nodup hours h).sublist hl2)
      obtain ⟨i1, i2, i3, i4⟩ := ih r.2 hnd' hc'
      have hz : ((selectLoop R hours r.2 L).1.flatten).countP (fun p => hours[p]? == some h) = 0 := by
        rw [List.countP_eq_zero]
        intro p hp
        obtain ⟨e, he, hpe⟩ := i2 p hp
        rw [hpe]
        simpa using hnotin e he
      have hsel : (selectLoop R hours g ((h, c) :: L)).1 = r.1 :: (selectLoop R hours r.2 L).1 := by
        simp only [selectLoop, if_neg h0, hmin]
        rfl
      rw [hsel, List.flatten_cons]
      refine ⟨?_, ?_, ?_, ?_⟩
      · rw [List.nodup_append]
        refine ⟨hrn, i1, ?_⟩
        intro a ha b hb hab
        subst hab
        obtain ⟨e, he, hpe⟩ := i2 a hb
        rw [hrm a ha] at hpe
        exact hnotin e he (Option.some.inj hpe).symm
      · intro p hp
        rcases List.mem_append.1 hp with hp | hp
        · exact ⟨(h, c), List.mem_cons_self, hrm p hp⟩
        · obtain ⟨e, he, hpe⟩ := i2 p hp
          exact ⟨e, List.mem_cons_of_mem _ he, hpe⟩
      · intro e he
        rw [List.countP_append]
        rcases List.mem_cons.1 he with rfl | he
        · rw [hz, Nat.add_zero]
          rw [List.countP_eq_length.2, hrl]
          intro p hp; simp [hrm p hp]
        · rw [i3 e he]
          have : r.1.countP (fun p => hours[p]? == some e.1) = 0 := by
            rw [List.countP_eq_zero]
            intro p hp
            rw [hrm p hp]
            simpa using (hnotin e he).symm
          omega
      · simp [i4, hrl]

end
end PyF.Subsample
