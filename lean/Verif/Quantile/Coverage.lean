import Verif.Quantile.Units
import Mathlib.Data.Finset.Max
import Mathlib.Data.Finset.Card
import Mathlib.Data.Fintype.Card
import Mathlib.Algebra.Order.BigOperators.Group.Finset
import Mathlib.Algebra.BigOperators.Fin
import Mathlib.Algebra.BigOperators.Group.Finset.Piecewise
import Mathlib.Tactic.Linarith
import Mathlib.Tactic.Tauto

/-! C308: the share of new observations below their quantile forecast. -/

namespace PyF.Quantile
open PyF Spec

/-- Row `i` is below its forecast of level `l` for target `j`, the errors being those of all the other rows. -/
def Below {X : Type} {T : Nat} (predict : X → Fin T → ℚ) (qv : List ℚ) (rows : List (TrainRow X T)) (j : Fin T) (l i : Nat) : Prop :=
  ∃ r ed Q v, rows[i]? = some r ∧ fitErr predict true qv (rows.eraseIdx i) = .ok ed ∧ predictQuantiles predict ed [(r.x, r.hour)] = .ok [Q] ∧ (Q j)[l]? = some v ∧ r.y j ≤ v

/-- The error of row `i`. -/
def errAt {X : Type} {T : Nat} (predict : X → Fin T → ℚ) (rows : List (TrainRow X T)) (j : Fin T) (i : Fin rows.length) : ℚ := rows[i].y j - predict rows[i].x j

section
variable {ι : Type} [DecidableEq ι]

theorem rank_low (S : Finset ι) (e : ι → ℚ) (x : ℚ) (hx : x < S.card) : x < ((S.filter (fun i => (((S.filter (fun j => e j < e i)).card : ℕ) : ℚ) ≤ x)).card : ℚ) := by
  by_cases hB : (S.filter (fun i => ¬ (((S.filter (fun j => e j < e i)).card : ℕ) : ℚ) ≤ x)).Nonempty
  · obtain ⟨i, hi, hmin⟩ := Finset.exists_min_image _ e hB
    rw [Finset.mem_filter] at hi
    have h1 := not_le.1 hi.2
    refine h1.trans_le ?_
    have : S.filter (fun j => e j < e i) ⊆ S.filter (fun i => (((S.filter (fun j => e j < e i)).card : ℕ) : ℚ) ≤ x) := by
      intro k hk
      rw [Finset.mem_filter] at hk ⊢
      refine ⟨hk.1, ?_⟩
      by_contra hc
      exact absurd (hmin k (Finset.mem_filter.2 ⟨hk.1, hc⟩)) (not_le.2 hk.2)
    exact_mod_cast Finset.card_le_card this
  · rw [Finset.not_nonempty_iff_eq_empty, Finset.filter_eq_empty_iff] at hB
    rw [Finset.filter_true_of_mem (fun i hi => not_not.1 (hB hi))]
    exact hx

theorem core_low (S : Finset ι) (e : ι → ℚ) (sample : ι → List ℚ) (hS : 2 ≤ S.card) (hc : ∀ i ∈ S, ∀ p : ℚ → Bool, (sample i).countP p = ((S.erase i).filter (fun j => p (e j) = true)).card)
    (q : ℚ) (h0 : 0 ≤ q) (h1 : q ≤ 1) : q * ((S.card : ℚ) - 2) < ((S.filter (fun i => e i ≤ quantileVal (sample i) q)).card : ℚ) := by
  have hS' : (2 : ℚ) ≤ S.card := by exact_mod_cast hS
  refine (rank_low S e (q * ((S.card : ℚ) - 2)) (by nlinarith)).trans_le ?_
  have : S.filter (fun i => (((S.filter (fun j => e j < e i)).card : ℕ) : ℚ) ≤ q * ((S.card : ℚ) - 2)) ⊆ S.filter (fun i => e i ≤ quantileVal (sample i) q) := by
    intro i hi
    rw [Finset.mem_filter] at hi ⊢
    refine ⟨hi.1, ?_⟩
    by_contra hlt
    push Not at hlt
    have hlen : (sample i).length = S.card - 1 := by
      have := hc i hi.1 (fun _ => true)
      rw [List.countP_true] at this
      rw [this]
      simp [Finset.card_erase_of_mem hi.1]
    have hne : sample i ≠ [] := by intro h; rw [h] at hlen; simp at hlen; omega
    have hq := (quantileVal_isEmpirical hne h0 h1).1
    rw [hlen, Nat.cast_sub (by omega), hc i hi.1] at hq
    have hsub : (S.erase i).filter (fun j => decide (e j ≤ quantileVal (sample i) q) = true) ⊆ S.filter (fun j => e j < e i) := by
      intro k hk
      simp only [Finset.mem_filter, Finset.mem_erase, decide_eq_true_eq] at hk ⊢
      exact ⟨hk.1.2, hk.2.trans_lt hlt⟩
    have h3 : ((((S.erase i).filter (fun j => decide (e j ≤ quantileVal (sample i) q) = true)).card : ℕ) : ℚ) ≤ ((S.filter (fun j => e j < e i)).card : ℕ) := by
      exact_mod_cast Finset.card_le_card hsub
    have h4 := hi.2
    push_cast at hq
    have : q * ((S.card : ℚ) - 1 - 1) = q * ((S.card : ℚ) - 2) := by ring
    linarith
  exact_mod_cast Finset.card_le_card this

theorem core_high (S : Finset ι) (e : ι → ℚ) (sample : ι → List ℚ) (hS : 2 ≤ S.card) (hc : ∀ i ∈ S, ∀ p : ℚ → Bool, (sample i).countP p = ((S.erase i).filter (fun j => p (e j) = true)).card)
    (q : ℚ) (h0 : 0 ≤ q) (h1 : q ≤ 1) (hinj : ∀ i ∈ S, ∀ j ∈ S, e i = e j → i = j) : ((S.filter (fun i => e i ≤ quantileVal (sample i) q)).card : ℚ) < q * ((S.card : ℚ) - 2) + 2 := by
  have hS' : (2 : ℚ) ≤ S.card := by exact_mod_cast hS
  set C := S.filter (fun i => e i ≤ quantileVal (sample i) q) with hC
  by_cases hne : C.Nonempty
  · obtain ⟨i, hi, hmax⟩ := Finset.exists_max_image C e hne
    have hi' := hi
    rw [hC, Finset.mem_filter] at hi'
    have hlen : (sample i).length = S.card - 1 := by
      have := hc i hi'.1 (fun _ => true)
      rw [List.countP_true] at this
      rw [this]
      simp [Finset.card_erase_of_mem hi'.1]
    have hnil : sample i ≠ [] := by intro h; rw [h] at hlen; simp at hlen; omega
    have hq := (quantileVal_isEmpirical hnil h0 h1).2
    rw [hlen, Nat.cast_sub (by omega), hc i hi'.1] at hq
    -- the rows above `v` and the other members of `C` are disjoint parts of the other rows
    have hdis : Disjoint (C.erase i) ((S.erase i).filter (fun j => decide (quantileVal (sample i) q ≤ e j) = true)) := by
      rw [Finset.disjoint_left]
      intro k hk hk'
      simp only [Finset.mem_filter, Finset.mem_erase, decide_eq_true_eq] at hk hk'
      have h5 := hmax k hk.2
      have h6 : e k = e i := le_antisymm h5 (hi'.2.trans hk'.2)
      exact hk.1 (hinj k hk'.1.2 i hi'.1 h6)
    have hsub : C.erase i ∪ (S.erase i).filter (fun j => decide (quantileVal (sample i) q ≤ e j) = true) ⊆ S.erase i := by
      intro k hk
      rw [Finset.mem_union] at hk
      rcases hk with hk | hk
      · rw [Finset.mem_erase] at hk ⊢
        rw [hC, Finset.mem_filter] at hk
        exact ⟨hk.1, hk.2.1⟩
      · exact (Finset.mem_filter.1 hk).1
    have h7 := Finset.card_le_card hsub
    rw [Finset.card_union_of_disjoint hdis, Finset.card_erase_of_mem hi, Finset.card_erase_of_mem hi'.1] at h7
    have hCpos : 1 ≤ C.card := Finset.card_pos.2 hne
    have h8 : (C.card : ℚ) + (((S.erase i).filter (fun j => decide (quantileVal (sample i) q ≤ e j) = true)).card : ℕ) ≤ S.card := by
      exact_mod_cast (by omega : C.card + ((S.erase i).filter (fun j => decide (quantileVal (sample i) q ≤ e j) = true)).card ≤ S.card)
    push_cast at hq
    nlinarith
  · rw [Finset.not_nonempty_iff_eq_empty] at hne
    rw [hne]
    simp only [Finset.card_empty, Nat.cast_zero]
    nlinarith
end

theorem countP_eq_card {α : Type} (l : List α) (P : α → Bool) : l.countP P = ((Finset.univ : Finset (Fin l.length)).filter (fun j => P l[j] = true)).card := by
  induction l with
  | nil => simp
  | cons a l ih =>
    rw [List.countP_cons, ih, Finset.card_filter, Finset.card_filter, add_comm]
    exact (Fin.sum_univ_succ (n := l.length) (fun i => if P (a :: l)[i] = true then 1 else 0)).symm

theorem countP_eraseIdx {α : Type} (l : List α) (P : α → Bool) (i : Fin l.length) :
    (l.eraseIdx i).countP P = ((Finset.univ.erase i).filter (fun j : Fin l.length => P l[j] = true)).card := by
  have h1 : l.countP P = (l.eraseIdx i).countP P + if P l[i] = true then 1 else 0 := by
    have : (l[i] :: l.eraseIdx i).Perm l := List.getElem_cons_eraseIdx_perm i.isLt
    rw [← this.countP_eq, List.countP_cons]
  rw [countP_eq_card] at h1
  rw [Finset.filter_erase]
  by_cases hp : P l[i] = true
  · rw [Finset.card_erase_of_mem (by simpa using hp), h1, if_pos hp]
    omega
  · rw [Finset.erase_eq_of_notMem (by simpa using hp), h1, if_neg hp]
    rfl

theorem below_iff {X : Type} {T : Nat} (predict : X → Fin T → ℚ) (qv : List ℚ) (rows : List (TrainRow X T)) (j : Fin T) (l : Nat) (q : ℚ) (hq : ValidLevels qv) (hl : qv[l]? = some q)
    (h2 : 2 ≤ rows.length) (i : Fin rows.length) :
    Below predict qv rows j l i ↔ errAt predict rows j i ≤ quantileVal ((rowsOf ((rows.eraseIdx i).map (fun r => (⟨r.hour, fun j => r.y j - predict r.x j⟩ : ErrRow T))) rows[i].hour).map (fun r => r.err j)) q := by
  have hne : (rows.eraseIdx i).map (fun r => (⟨r.hour, fun j => r.y j - predict r.x j⟩ : ErrRow T)) ≠ [] := by
    intro h
    have := congrArg List.length h
    rw [List.length_map, List.length_eraseIdx_of_lt i.isLt] at this
    simp at this
    omega
  have ht := table_eq qv _ hq hne
  unfold Below errAt
  have hget : rows[i.val]? = some rows[i] := List.getElem?_eq_getElem i.isLt
  constructor
  · rintro ⟨r, ed, Q, v, hr, hf, hp, hv, hy⟩
    rw [hget] at hr
    cases hr
    unfold fitErr at hf
    rw [ht] at hf
    cases hf
    rw [predict_ok] at hp
    simp only [List.map_cons, List.map_nil, Except.ok.injEq, List.cons.injEq, and_true] at hp
    subst hp
    simp only [List.getElem?_map, hl, Option.map_some, Option.some.injEq] at hv
    linarith
  · intro h
    refine ⟨rows[i], _, _, predict rows[i].x j + quantileVal ((rowsOf ((rows.eraseIdx i).map (fun r => (⟨r.hour, fun j => r.y j - predict r.x j⟩ : ErrRow T))) rows[i].hour).map (fun r => r.err j)) q,
      hget, ht, predict_ok _ _ _, by simp only [List.getElem?_map, hl, Option.map_some], by linarith⟩

/-- C308 (hour of the day): let every hour occur at least twice. If one of the `m` rows of an hour is forecast with the errors of all the other rows, and all choices are equally likely,
the observation is below its forecast of level `q` in more than `q (m - 2)` of the `m` cases, and, when no two errors of the hour are equal, in fewer than `q (m - 2) + 2`. -/
theorem C308_hour {X : Type} {T : Nat} (predict : X → Fin T → ℚ) (qv : List ℚ) (rows : List (TrainRow X T)) (j : Fin T) (l : Nat) (q : ℚ) (hq : ValidLevels qv) (hl : qv[l]? = some q)
    (hall : ∀ h : Fin 24, 2 ≤ ((Finset.univ : Finset (Fin rows.length)).filter (fun i => rows[i].hour = h)).card) (h : Fin 24) [DecidablePred fun i : Fin rows.length => Below predict qv rows j l i.val] :
    let S := (Finset.univ : Finset (Fin rows.length)).filter (fun i => rows[i].hour = h)
    q * ((S.card : ℚ) - 2) < ((S.filter (fun i => Below predict qv rows j l i.val)).card : ℚ) ∧
      ((∀ i ∈ S, ∀ k ∈ S, errAt predict rows j i = errAt predict rows j k → i = k) → ((S.filter (fun i => Below predict qv rows j l i.val)).card : ℚ) < q * ((S.card : ℚ) - 2) + 2) := by
  intro S
  have hS : 2 ≤ S.card := hall h
  have h2 : 2 ≤ rows.length := by
    have : S.card ≤ (Finset.univ : Finset (Fin rows.length)).card := Finset.card_le_card (Finset.filter_subset _ _)
    rw [Finset.card_univ, Fintype.card_fin] at this
    omega
  set sample : Fin rows.length → List ℚ := fun i =>
    (rowsOf ((rows.eraseIdx i).map (fun r => (⟨r.hour, fun j => r.y j - predict r.x j⟩ : ErrRow T))) rows[i].hour).map (fun r => r.err j) with hsam
  have hf : S.filter (fun i => Below predict qv rows j l i.val) = S.filter (fun i => errAt predict rows j i ≤ quantileVal (sample i) q) := by
    apply Finset.filter_congr
    intro i _
    exact below_iff predict qv rows j l q hq hl h2 i
  have hcount : ∀ i ∈ S, ∀ p : ℚ → Bool, (sample i).countP p = ((S.erase i).filter (fun k => p (errAt predict rows j k) = true)).card := by
    intro i hi p
    have hi' : rows[i].hour = h := (Finset.mem_filter.1 hi).2
    have hhave : ∀ h : Fin 24, ∃ r ∈ (rows.eraseIdx i).map (fun r => (⟨r.hour, fun j => r.y j - predict r.x j⟩ : ErrRow T)), r.hour = h := by
      intro h'
      have hc := countP_eraseIdx rows (fun r => decide (r.hour = h')) i
      have hpos : 0 < (rows.eraseIdx i).countP (fun r => decide (r.hour = h')) := by
        rw [hc, Finset.filter_erase]
        have := hall h'
        have h3 := Finset.pred_card_le_card_erase (s := (Finset.univ : Finset (Fin rows.length)).filter (fun k => decide (rows[k].hour = h') = true)) (a := i)
        simp only [decide_eq_true_eq] at h3 ⊢
        omega
      obtain ⟨r, hr, hr'⟩ := List.countP_pos_iff.1 hpos
      exact ⟨_, List.mem_map_of_mem hr, by simpa using hr'⟩
    rw [hsam]
    simp only
    unfold rowsOf
    rw [if_pos hhave, List.filter_map, List.map_map, List.countP_map, List.countP_filter, countP_eraseIdx]
    congr 1
    ext k
    rw [Finset.mem_filter, Finset.mem_filter, Finset.mem_erase, Finset.mem_erase, Finset.mem_filter, hi']
    simp only [Finset.mem_univ, Function.comp_apply, Bool.and_eq_true, beq_iff_eq, errAt, and_true, true_and]
    tauto
  rw [hf]
  exact ⟨core_low S _ sample hS hcount q (hq q (List.mem_of_getElem? hl)).1 (hq q (List.mem_of_getElem? hl)).2,
    fun hinj => core_high S _ sample hS hcount q (hq q (List.mem_of_getElem? hl)).1 (hq q (List.mem_of_getElem? hl)).2 hinj⟩

/-- C308 (pooled): if some hour does not occur the same holds for all the rows together. -/
theorem C308_pooled {X : Type} {T : Nat} (predict : X → Fin T → ℚ) (qv : List ℚ) (rows : List (TrainRow X T)) (j : Fin T) (l : Nat) (q : ℚ) (hq : ValidLevels qv) (hl : qv[l]? = some q)
    (h2 : 2 ≤ rows.length) (h : Fin 24) (hmiss : ∀ r ∈ rows, r.hour ≠ h) [DecidablePred fun i : Fin rows.length => Below predict qv rows j l i.val] :
    q * ((rows.length : ℚ) - 2) < (((Finset.univ : Finset (Fin rows.length)).filter (fun i => Below predict qv rows j l i.val)).card : ℚ) ∧
      ((∀ i k, errAt predict rows j i = errAt predict rows j k → i = k) →
        (((Finset.univ : Finset (Fin rows.length)).filter (fun i => Below predict qv rows j l i.val)).card : ℚ) < q * ((rows.length : ℚ) - 2) + 2) := by
  set S := (Finset.univ : Finset (Fin rows.length)) with hSd
  have hcard : S.card = rows.length := by rw [hSd, Finset.card_univ, Fintype.card_fin]
  set sample : Fin rows.length → List ℚ := fun i =>
    (rowsOf ((rows.eraseIdx i).map (fun r => (⟨r.hour, fun j => r.y j - predict r.x j⟩ : ErrRow T))) rows[i].hour).map (fun r => r.err j) with hsam
  have hf : S.filter (fun i => Below predict qv rows j l i.val) = S.filter (fun i => errAt predict rows j i ≤ quantileVal (sample i) q) := by
    apply Finset.filter_congr
    intro i _
    exact below_iff predict qv rows j l q hq hl h2 i
  have hcount : ∀ i ∈ S, ∀ p : ℚ → Bool, (sample i).countP p = ((S.erase i).filter (fun k => p (errAt predict rows j k) = true)).card := by
    intro i hi p
    have hnot : ¬ ∀ h : Fin 24, ∃ r ∈ (rows.eraseIdx i).map (fun r => (⟨r.hour, fun j => r.y j - predict r.x j⟩ : ErrRow T)), r.hour = h := by
      intro H
      obtain ⟨r, hr, hr'⟩ := H h
      obtain ⟨r', hr1, rfl⟩ := List.mem_map.1 hr
      exact hmiss r' (List.mem_of_mem_eraseIdx hr1) hr'
    rw [hsam]
    simp only
    unfold rowsOf
    rw [if_neg hnot, List.map_map, List.countP_map, countP_eraseIdx]
    rfl
  rw [hf, show (rows.length : ℚ) = (S.card : ℚ) by rw [hcard]]
  exact ⟨core_low S _ sample (by omega) hcount q (hq q (List.mem_of_getElem? hl)).1 (hq q (List.mem_of_getElem? hl)).2,
    fun hinj => core_high S _ sample (by omega) hcount q (hq q (List.mem_of_getElem? hl)).1 (hq q (List.mem_of_getElem? hl)).2 (fun i _ k _ => hinj i k)⟩

end PyF.Quantile
