import Verif.Recon.Props

namespace PyF.Recon
open PyF Matrix

variable {N T : Type} [DecidableEq N] [DecidableEq T]

/-! ### C62 -/

theorem mem_order (h : Hier N) (names : List N) (c : N) : c ∈ order h names ↔ c ∈ keys h ∨ c ∈ names := by
  unfold order
  rw [List.mem_append, List.mem_filter, (firsts_spec names).2, decide_eq_true_eq]
  tauto

omit [DecidableEq N] in
theorem name_injective (s : Sys N) (hnd : (s.aggr ++ s.bottoms).Nodup) : Function.Injective s.name := by
  intro i j hij
  have hp : pos s i = pos s j := by
    have h1 := ordered_get s i
    rw [hij, ← ordered_get s j] at h1
    exact (List.getElem?_inj (List.getElem?_eq_some_iff.1 (ordered_get s i)).1 hnd).1 h1
  cases i with
  | inl i => cases j with
    | inl j => congr 1; exact Fin.ext hp
    | inr j => simp only [pos, Sum.elim_inl, Sum.elim_inr] at hp; have := i.2; omega
  | inr i => cases j with
    | inl j => simp only [pos, Sum.elim_inl, Sum.elim_inr] at hp; have := j.2; omega
    | inr j => simp only [pos, Sum.elim_inr] at hp; congr 1; exact Fin.ext (by omega)

theorem fit_last {h : Hier N} {f : Nat} {names : List N} {W : (s : Sys N) → T → Matrix s.Idx s.Idx ℝ} {y yhat : T → Nat → N → ℝ} {targets : List T} (ht : targets ≠ []) {m : Fitted N T}
    (hm : fit h f names W y yhat targets = .ok m) : m.P * m.s.S = 1 := by
  obtain ⟨hx, hs, _⟩ := fit_system hm
  unfold fit at hm
  rw [(system_fields hs).2.2] at hm
  simp only at hm
  rw [if_pos hx, hs] at hm
  simp only at hm
  have key : ∀ (s : Sys N) (ts : List T) (P : Matrix (Fin s.bottoms.length) s.Idx ℝ) (errs : T → Nat → N → ℝ) (m : Fitted N T), fitLoop s (W s) (order h names) y yhat ts P errs = .ok m →
      (ts ≠ [] ∨ P * s.S = 1) → m.P * m.s.S = 1 := by
    intro s ts
    induction ts with
    | nil =>
      intro P errs m he hor
      cases he
      exact hor.resolve_left (by simp)
    | cons t ts ih =>
      intro P errs m he _
      unfold fitLoop at he
      cases hP : s.fitP (W s t) with
      | error e => rw [hP] at he; cases he
      | ok P' =>
        rw [hP] at he
        simp only at he
        cases hc : s.check (order h names) with
        | error e => rw [hc] at he; cases he
        | ok u => rw [hc] at he; exact ih _ _ m he (Or.inr (fitP_left_inv hP).1)
  exact key m.s targets _ _ m hm (Or.inl ht)

/-- C62 (columns): prediction of a frame that lacks a training series is a `KeyError`, of one with an additional series a `ValueError`. With the same series
the labels are right for all base forecasts iff the bottom series appear in the order of the training frame. -/
theorem C62_labels (h : Hier N) (hk : (keys h).Nodup) (f : Nat) (names names' : List N) (W : (s : Sys N) → T → Matrix s.Idx s.Idx ℝ) (y yhat : T → Nat → N → ℝ) (targets : List T) (ht : targets ≠ []) (m : Fitted N T)
    (hm : fit h f names W y yhat targets = .ok m) (hx : ∀ k ∈ keys h, k ∈ names') :
    ((∃ c ∈ names, c ∉ names') → ∀ row, predict h m names' row = .error .keyError) ∧
      ((∀ c ∈ names, c ∈ names') → (∃ c ∈ names', c ∉ names) → ∀ row, predict h m names' row = .error .valueError) ∧
      ((∀ c, c ∈ names' ↔ c ∈ names) → (∀ row, ∃ l, predict h m names' row = .ok l ∧ l.map (·.1) = order h names') ∧
        ((∀ row l, predict h m names' row = .ok l → ∀ c ∈ names, l.lookup c = ((order h names).zip (m.s.valueList m.P row)).lookup c) ↔ order h names' = order h names)) := by
  obtain ⟨hx0, hs, hord⟩ := fit_system hm
  have hkx : ∀ k ∈ keys h, k ∈ names := by
    unfold checkX at hx0
    rw [List.all_eq_true] at hx0
    exact fun k hk => of_decide_eq_true (hx0 k hk)
  have hmem : ∀ c, c ∈ order h names ↔ c ∈ names := fun c => by rw [mem_order]; exact ⟨fun hc => hc.elim (hkx c) id, Or.inr⟩
  have hmem' : ∀ c, c ∈ order h names' ↔ c ∈ names' := fun c => by rw [mem_order]; exact ⟨fun hc => hc.elim (hx c) id, Or.inr⟩
  have hxx : checkX h names' = true := by
    unfold checkX
    rw [List.all_eq_true]
    exact fun k hk => decide_eq_true (hx k hk)
  have hnd := order_nodup hk names
  have hnd' := order_nodup hk names'
  refine ⟨?_, ?_, ?_⟩
  · rintro ⟨c, hc, hc'⟩ row
    unfold predict Sys.reconcile Sys.check
    rw [if_pos hxx, hord, if_neg]
    intro hall
    rw [List.all_eq_true] at hall
    exact hc' ((hmem' c).1 (of_decide_eq_true (hall c ((hmem c).2 hc))))
  · rintro hsub ⟨c, hc, hc'⟩ row
    unfold predict Sys.reconcile Sys.check
    rw [if_pos hxx, hord, if_pos (by rw [List.all_eq_true]; exact fun d hd => decide_eq_true ((hmem' d).2 (hsub d ((hmem d).1 hd)))), if_neg]
    intro hlen
    have hsp : (order h names).Subperm (order h names') := hnd.subperm (fun d hd => (hmem' d).2 (hsub d ((hmem d).1 hd)))
    have hp := hsp.perm_of_length_le (by omega)
    exact hc' ((hmem c).1 (hp.mem_iff.2 ((hmem' c).2 hc)))
  · intro hset
    have hperm : (order h names').Perm (order h names) := by
      rw [List.perm_ext_iff_of_nodup hnd' hnd]
      intro c
      rw [hmem, hmem', hset]
    have hpred : ∀ row, predict h m names' row = .ok ((order h names').zip (m.s.valueList m.P row)) := by
      intro row
      unfold predict Sys.reconcile Sys.check
      rw [if_pos hxx, hord, if_pos (by rw [List.all_eq_true]; exact fun d hd => decide_eq_true (hperm.mem_iff.2 hd)), if_pos hperm.length_eq]
    refine ⟨fun row => ⟨_, hpred row, ?_⟩, ?_, ?_⟩
    · rw [List.map_fst_zip]
      rw [valueList_length, hord, hperm.length_eq]
    · intro hall
      have hinj := name_injective m.s (by rw [hord]; exact hnd)
      apply List.ext_getElem?
      intro p
      by_cases hp : p < (order h names).length
      · have hp' : p < (order h names').length := by rw [hperm.length_eq]; exact hp
        rw [← hord] at hp
        obtain ⟨i, hi⟩ := pos_surj m.s hp
        have e1 : (order h names)[p]? = some (m.s.name i) := by rw [← hord, ← hi]; exact ordered_get m.s i
        have e2 := List.getElem?_eq_getElem hp'
        have hin : (order h names')[p] ∈ order h names := hperm.mem_iff.1 (List.getElem_mem hp')
        -- aggregates come first in both orders
        cases i with
        | inl i =>
          have hpk : p < (keys h).length := by
            rw [← (system_fields hs).1, ← hi]
            exact i.2
          unfold order
          rw [List.getElem?_append_left hpk, List.getElem?_append_left hpk]
        | inr j =>
          have hpk : (keys h).length ≤ p := by
            rw [← (system_fields hs).1, ← hi]
            simp only [pos, Sum.elim_inr]
            omega
          -- the label at this position is a bottom series
          have hb : (order h names')[p] ∉ keys h := by
            intro hkp
            obtain ⟨q, hq⟩ := List.mem_iff_getElem?.1 hkp
            have hq1 := (List.getElem?_eq_some_iff.1 hq).1
            have hq2 : (order h names')[q]? = some (order h names')[p] := by
              rw [← hq]
              unfold order
              rw [List.getElem?_append_left hq1]
            have := (List.getElem?_inj (by omega) hnd').1 (hq2.trans e2.symm)
            omega
          obtain ⟨q, hq⟩ := List.mem_iff_getElem?.1 hin
          have hqlt := (List.getElem?_eq_some_iff.1 hq).1
          rw [← hord] at hqlt
          obtain ⟨i', hi'⟩ := pos_surj m.s hqlt
          have e3 : (order h names')[p] = m.s.name i' := by
            have := ordered_get m.s i'
            rw [hi', hord, hq] at this
            exact Option.some.inj this
          cases i' with
          | inl i' =>
            exfalso
            apply hb
            rw [e3, ← (system_fields hs).1]
            exact List.getElem_mem i'.2
          | inr j' =>
            rw [e1, e2, e3]
            by_cases hjj : j' = j
            · rw [hjj]
            · exfalso
              -- base forecasts coherent with a single non-zero bottom series
              have hPS := fit_last ht hm
              have hv : ∀ b : Fin m.s.bottoms.length → ℝ, b j = b j' := by
                intro b
                have hval : m.s.values m.P (Function.extend m.s.name (m.s.S *ᵥ b) 0) = m.s.S *ᵥ b := by
                  unfold Sys.values
                  rw [show (fun i => Function.extend m.s.name (m.s.S *ᵥ b) 0 (m.s.name i)) = m.s.S *ᵥ b from funext (fun i => hinj.extend_apply _ 0 i), Matrix.mulVec_mulVec, Matrix.mul_assoc, hPS, Matrix.mul_one]
                have hl := hall _ _ (hpred (Function.extend m.s.name (m.s.S *ᵥ b) 0)) _ ((hmem _).1 hin)
                rw [zip_lookup hnd' e2 (by rw [← hi]; exact valueList_get m.s m.P _ (.inr j)), e3,
                  zip_lookup hnd (by rw [← hord]; exact ordered_get m.s (.inr j')) (valueList_get m.s m.P _ (.inr j')), hval] at hl
                have hSr : ∀ k : Fin m.s.bottoms.length, (m.s.S *ᵥ b) (.inr k) = b k := by
                  intro k
                  unfold Sys.S
                  rw [Matrix.fromRows_mulVec, Sum.elim_inr, Matrix.one_mulVec]
                have := Option.some.inj hl
                rwa [hSr, hSr] at this
              have := hv (fun k => if k = j then 1 else 0)
              rw [if_pos rfl, if_neg hjj] at this
              norm_num at this
      · rw [List.getElem?_eq_none (by rw [hperm.length_eq]; omega), List.getElem?_eq_none (by omega)]
    · intro he row l hl c _
      rw [hpred row] at hl
      cases hl
      rw [he]

/-! ### C109: the Bayesian method -/

/-- C109: if the aggregate columns are not labelled by the integers 0, 1, .. themselves, reconciliation with `bayes` raises a `ValueError`: the difference of named and unnamed
rows has twice as many rows as there are aggregates. -/
theorem C109_bayes_always_fails (int : Nat → N) (s : Sys N) (cols : List N) (hc : ∃ c ∈ cols, c ∉ s.bottoms) (hi : ∀ c ∈ cols, c ∉ s.bottoms → ∀ i, c ≠ int i) :
    bayesRows int s cols = .error .valueError := by
  have hne : cols.filter (fun c => decide (c ∉ s.bottoms)) ≠ [] := by
    obtain ⟨c, h1, h2⟩ := hc
    exact List.ne_nil_of_mem (List.mem_filter.2 ⟨h1, decide_eq_true h2⟩)
  have hdis : ∀ x ∈ (List.range s.aggr.length).map int, x ∉ cols.filter (fun c => decide (c ∉ s.bottoms)) := by
    intro x hx hf
    obtain ⟨i, _, rfl⟩ := List.mem_map.1 hx
    rw [List.mem_filter, decide_eq_true_eq] at hf
    exact hi _ hf.1 hf.2 i rfl
  unfold bayesRows
  simp only [matmul, if_true]
  rw [if_neg]
  unfold align
  rw [if_neg]
  · rw [List.length_append, List.filter_eq_self.2 (fun x hx => decide_eq_true (hdis x hx)), List.length_map, List.length_range]
    have := List.length_pos_iff.2 hne
    omega
  · intro he
    obtain ⟨x, hx⟩ := List.exists_mem_of_ne_nil _ hne
    exact hdis x (he ▸ hx) hx

/-! ### C110, C111: scenarios -/

theorem mem_rowsOf {trH : List Nat} {hour i : Nat} : i ∈ rowsOf trH hour ↔ trH[i]? = some hour := by
  unfold rowsOf
  rw [List.mem_filter, List.mem_range, decide_eq_true_eq]
  exact ⟨fun h => h.2, fun h => ⟨(List.getElem?_eq_some_iff.1 h).1, h⟩⟩

omit [DecidableEq N] in
/-- C110: scenarios can only be drawn for a frame with as many rows as the training frame. Then every row gets scenarios once, by adding errors of training rows; their hour is the hour of the
training row at the same position, not the hour of the row itself. -/
theorem C110_scenario_rows (trH : List Nat) (hh : ∀ x ∈ trH, x < 24) (errs : Nat → N → ℝ) (n : Nat) (base : Nat → N → ℝ) (draw : Nat → Nat → Nat → Nat)
    (hd : ∀ hour sc k, rowsOf trH hour ≠ [] → draw hour sc k < (rowsOf trH hour).length) :
    (trH.length ≠ n → scenarios trH errs n base draw = .error .indexError) ∧
      (trH.length = n → ∃ l, scenarios trH errs n base draw = .ok l ∧ (l.map (·.1)).Perm (List.range n) ∧
        ∀ i scen, (i, scen) ∈ l → ∀ sc, ∃ r < n, trH[r]? = trH[i]? ∧ ∀ nm, scen sc nm = base i nm + errs r nm) := by
  constructor
  · intro hne
    unfold scenarios
    rw [if_neg hne]
  · intro he
    unfold scenarios
    rw [if_pos he]
    refine ⟨_, rfl, ?_, ?_⟩
    · rw [List.map_flatMap]
      have hz : ∀ hour : Nat, ((rowsOf trH hour).zipIdx.map (fun (ik : Nat × Nat) => (ik.1, fun (sc : Nat) (nm : N) => base ik.1 nm + errs ((rowsOf trH hour).getD (draw hour sc ik.2) 0) nm))).map (·.1) = rowsOf trH hour := by
        intro hour
        rw [List.map_map]
        exact List.zipIdx_map_fst _ _
      simp only [hz]
      rw [List.perm_ext_iff_of_nodup]
      · intro i
        rw [List.mem_flatMap, List.mem_range]
        constructor
        · rintro ⟨hour, _, hi⟩
          rw [mem_rowsOf] at hi
          rw [← he]
          exact (List.getElem?_eq_some_iff.1 hi).1
        · intro hi
          rw [← he] at hi
          exact ⟨trH[i], List.mem_range.2 (hh _ (List.getElem_mem hi)), mem_rowsOf.2 (List.getElem?_eq_getElem hi)⟩
      · rw [List.nodup_flatMap]
        refine ⟨fun hour _ => List.Nodup.filter _ List.nodup_range, ?_⟩
        refine List.Pairwise.imp ?_ (List.nodup_range (n := 24))
        intro a b hab
        change List.Disjoint _ _
        intro i ha hb
        rw [mem_rowsOf] at ha hb
        rw [ha] at hb
        exact hab (Option.some.inj hb)
      · exact List.nodup_range
    · intro i scen hm sc
      obtain ⟨hour, _, hm'⟩ := List.mem_flatMap.1 hm
      obtain ⟨⟨i', k⟩, hik, he'⟩ := List.mem_map.1 hm'
      simp only [Prod.mk.injEq] at he'
      obtain ⟨rfl, rfl⟩ := he'
      have hi : i' ∈ rowsOf trH hour := by
        have := List.mem_map_of_mem (f := (·.1)) hik
        rwa [List.zipIdx_map_fst] at this
      have hlt := hd hour sc k (List.ne_nil_of_mem hi)
      refine ⟨(rowsOf trH hour)[draw hour sc k], ?_, ?_, ?_⟩
      · have := mem_rowsOf.1 (List.getElem_mem hlt)
        rw [← he]
        exact (List.getElem?_eq_some_iff.1 this).1
      · rw [mem_rowsOf.1 (List.getElem_mem hlt), mem_rowsOf.1 hi]
      · intro nm
        simp only
        rw [List.getD_eq_getElem?_getD, List.getElem?_eq_getElem hlt, Option.getD_some]

open Classical in
/-- A row is coherent, as a function. -/
def CoherentFn (h : Hier N) (bottoms : List N) (v : N → ℝ) : Prop := ∀ a ∈ keys h, v a = ((bottoms.filter (fun b => decide (Below h a b))).map v).sum

theorem coherentFn_add {h : Hier N} {bottoms : List N} {v w : N → ℝ} (hv : CoherentFn h bottoms v) (hw : CoherentFn h bottoms w) : CoherentFn h bottoms (fun n => v n + w n) := by
  intro a ha
  simp only
  rw [hv a ha, hw a ha, ← List.sum_map_add]

theorem coherentFn_sub {h : Hier N} {bottoms : List N} {v w : N → ℝ} (hv : CoherentFn h bottoms v) (hw : CoherentFn h bottoms w) : CoherentFn h bottoms (fun n => v n - w n) := by
  intro a ha
  simp only
  rw [hv a ha, hw a ha]
  induction bottoms.filter (fun b => @decide (Below h a b) (Classical.propDecidable _)) with
  | nil => simp
  | cons b l ih =>
    simp only [List.map_cons, List.sum_cons]
    rw [← ih]
    ring

/-- Reconciled values by name are coherent. -/
theorem coherentFn_values {h : Hier N} (hk : (keys h).Nodup) {f : Nat} {cols : List N} (hc : cols.Nodup) {s : Sys N} (hs : system h f cols = .ok s) (P : Matrix (Fin s.bottoms.length) s.Idx ℝ) (row : N → ℝ) :
    CoherentFn h s.bottoms (fun n => (((s.aggr ++ s.bottoms).zip (s.valueList P row)).lookup n).getD 0) := by
  classical
  obtain ⟨h1, h2, _⟩ := system_fields hs
  have hnd : (s.aggr ++ s.bottoms).Nodup := by
    rw [h1, h2]
    refine List.Nodup.append hk (hc.filter _) ?_
    intro a ha hb
    unfold bottomsOf at hb
    rw [List.mem_filter, decide_eq_true_eq] at hb
    exact hb.2 ha
  have hl : ∀ i : s.Idx, (((s.aggr ++ s.bottoms).zip (s.valueList P row)).lookup (s.name i)).getD 0 = s.values P row i := by
    intro i
    rw [zip_lookup hnd (ordered_get s i) (valueList_get s P row i), Option.getD_some]
  intro a ha
  rw [← h1] at ha
  obtain ⟨i, hi, rfl⟩ := List.mem_iff_getElem.1 ha
  simp only
  rw [show s.aggr[i] = s.name (.inl ⟨i, hi⟩) from rfl, hl, (values_split s P row).1, filter_map_sum, ← List.sum_ofFn]
  congr 1
  apply List.ext_getElem
  · simp
  · intro k hk1 hk2
    have hk : k < s.bottoms.length := by simpa using hk1
    rw [List.getElem_map, List.getElem_ofFn, (C63_summation_matrix h f cols s hs).2.2.1 ⟨i, hi⟩ ⟨k, hk⟩]
    rw [show s.bottoms[k] = s.name (.inr ⟨k, hk⟩) from rfl, hl]
    simp only [decide_eq_true_eq]
    rw [show s.bottoms[(⟨k, hk⟩ : Fin s.bottoms.length)] = s.name (.inr ⟨k, hk⟩) from rfl, show s.aggr[(⟨i, hi⟩ : Fin s.aggr.length)] = s.name (.inl ⟨i, hi⟩) from rfl]
    split <;> ring

/-- C111: if the training targets are coherent, every reconciled scenario of every step is coherent (series in the order of the training frame). -/
theorem C111_scenarios_coherent (h : Hier N) (hk : (keys h).Nodup) (f : Nat) (names : List N) (W : (s : Sys N) → T → Matrix s.Idx s.Idx ℝ) (y yhat : T → Nat → N → ℝ) (targets : List T) (hnd : targets.Nodup) (m : Fitted N T)
    (hm : fit h f names W y yhat targets = .ok m) (t : T) (ht : t ∈ targets) (hy : ∀ r, CoherentFn h m.s.bottoms (y t r)) (rows : Nat → N → ℝ) (trH : List Nat) (n : Nat) (draw : Nat → Nat → Nat → Nat)
    (l : List (Nat × (Nat → N → ℝ))) (hl : predictScenarios h m false names trH n rows draw t = .ok l) :
    ∀ i scen, (i, scen) ∈ l → ∀ sc, CoherentFn h m.s.bottoms (scen sc) := by
  obtain ⟨hx, hs, hord⟩ := fit_system hm
  unfold predictScenarios at hl
  simp only [Bool.false_eq_true, if_false] at hl
  rw [← hord, check_self] at hl
  simp only at hl
  rw [hord] at hl
  unfold fit at hm
  rw [(system_fields hs).2.2] at hm
  simp only at hm
  rw [if_pos hx, hs] at hm
  simp only at hm
  obtain ⟨P', _, _, _, e4, _⟩ := fitLoop_spec m.s (W m.s) (order h names) y yhat _ _ _ m hnd hm
  obtain ⟨Pt, _, herr⟩ := e4 t ht
  have hnd' := order_nodup hk names
  have herrc : ∀ r, CoherentFn h m.s.bottoms (m.errs t r) := by
    intro r
    rw [herr]
    unfold stepErrs
    have := coherentFn_sub (hy r) (coherentFn_values hk hnd' hs Pt (yhat t r))
    rw [hord] at this
    exact this
  intro i scen hi sc
  unfold scenarios at hl
  split at hl
  · cases hl
    obtain ⟨hour, _, hm'⟩ := List.mem_flatMap.1 hi
    obtain ⟨⟨i', k⟩, _, he'⟩ := List.mem_map.1 hm'
    simp only [Prod.mk.injEq] at he'
    obtain ⟨rfl, rfl⟩ := he'
    have hb := coherentFn_values hk hnd' hs m.P (rows i')
    rw [hord] at hb
    exact coherentFn_add hb (herrc _)
  · cases hl

/-- C110 (vanilla): scenarios around the base forecasts are drawn from the training errors of the reconciled forecasts, not from those of the base forecasts. -/
theorem C110_vanilla_uses_reconciled_errors (h : Hier N) (hk : (keys h).Nodup) (f : Nat) (names : List N) (W : (s : Sys N) → T → Matrix s.Idx s.Idx ℝ) (y yhat : T → Nat → N → ℝ) (ts : List T) (last : T)
    (hnd : (ts ++ [last]).Nodup) (m : Fitted N T) (hm : fit h f names W y yhat (ts ++ [last]) = .ok m) (t : T) (ht : t ∈ ts ++ [last]) (trH : List Nat) (hh : ∀ x ∈ trH, x < 24) (rows : Nat → N → ℝ)
    (draw : Nat → Nat → Nat → Nat) (hd : ∀ hour sc k, rowsOf trH hour ≠ [] → draw hour sc k < (rowsOf trH hour).length) :
    ∃ l Pt, predictScenarios h m true names trH trH.length rows draw t = .ok l ∧ m.s.fitP (W m.s t) = .ok Pt ∧
      ∀ j scen, (j, scen) ∈ l → ∀ sc, ∃ r < trH.length, trH[r]? = trH[j]? ∧ ∀ i, scen sc (m.s.name i) = rows j (m.s.name i) + (y t r (m.s.name i) - m.s.values Pt (yhat t r) i) := by
  obtain ⟨_, _, h3⟩ := C64_last_matrix h hk f names W y yhat ts last hnd m hm
  obtain ⟨Pt, hPt, herr, _⟩ := h3 t ht
  obtain ⟨l, e1, _, e3⟩ := (C110_scenario_rows trH hh (m.errs t) trH.length rows draw hd).2 rfl
  refine ⟨l, Pt, ?_, hPt, ?_⟩
  · unfold predictScenarios
    rw [if_pos rfl, e1]
  · intro j scen hj sc
    obtain ⟨r, hr, h1, h2⟩ := e3 j scen hj sc
    exact ⟨r, hr, h1, fun i => by rw [h2, herr]⟩

/-! ### C112: levels -/

/-- Specification: a path of a given number of steps from a node downwards. -/
inductive Path (h : Hier N) : N → Nat → N → Prop
  | one {k c : N} {l : List N} (hk : h.lookup k = some l) (hc : c ∈ l) : Path h k 1 c
  | more {k c n : N} {d : Nat} {l : List N} (hk : h.lookup k = some l) (hc : c ∈ l) (ha : c ∈ keys h) (hd : Path h c d n) : Path h k (d + 1) n

omit [DecidableEq N] in
theorem exploreList_mem {isKey : N → Bool} {g : N → Except PyErr (List (N × Nat))} {level : Nat} {l : List N} {r : List (N × Nat)} (h : exploreList isKey g level l = .ok r) :
    (∀ c ∈ l, isKey c = true → ∃ r', g c = .ok r') ∧ ∀ x, x ∈ r ↔ (x.1 ∈ l ∧ x.2 = level) ∨ ∃ c ∈ l, isKey c = true ∧ ∃ r', g c = .ok r' ∧ x ∈ r' := by
  induction l generalizing r with
  | nil => cases h; simp
  | cons n l ih =>
    unfold exploreList at h
    cases hd : (if isKey n then g n else .ok []) with
    | error e => rw [hd] at h; cases h
    | ok l1 =>
      rw [hd] at h
      simp only at h
      cases hr : exploreList isKey g level l with
      | error e => rw [hr] at h; cases h
      | ok r1 =>
        rw [hr] at h
        cases h
        obtain ⟨i1, i2⟩ := ih hr
        constructor
        · intro c hc hk
          rcases List.mem_cons.1 hc with hc | hc
          · rw [hc] at hk ⊢
            rw [hk, if_pos rfl] at hd
            exact ⟨l1, hd⟩
          · exact i1 c hc hk
        · intro x
          rw [List.mem_append, List.mem_cons, i2]
          constructor
          · rintro ((h1 | h1) | ⟨h1, h2⟩ | ⟨c, h1, h2⟩)
            · rw [h1]; exact Or.inl ⟨by simp, rfl⟩
            · cases hk : isKey n with
              | true => rw [hk, if_pos rfl] at hd; exact Or.inr ⟨n, by simp, hk, l1, hd, h1⟩
              | false => rw [hk] at hd; simp only [Bool.false_eq_true, if_false] at hd; cases hd; simp at h1
            · exact Or.inl ⟨by simp [h1], h2⟩
            · exact Or.inr ⟨c, by simp [h1], h2⟩
          · rintro (⟨h1, h2⟩ | ⟨c, h1, h2, r', h3, h4⟩)
            · rcases List.mem_cons.1 h1 with h1 | h1
              · exact Or.inl (Or.inl (Prod.ext h1 h2))
              · exact Or.inr (Or.inl ⟨h1, h2⟩)
            · rcases List.mem_cons.1 h1 with h1 | h1
              · rw [h1] at h2 h3
                rw [h2, if_pos rfl, h3] at hd
                cases hd
                exact Or.inl (Or.inr h4)
              · exact Or.inr (Or.inr ⟨c, h1, h2, r', h3, h4⟩)

theorem explore_mem (h : Hier N) {f : Nat} {level : Nat} {k : N} {r : List (N × Nat)} (hr : explore h f level k = .ok r) (n : N) (d : Nat) : (n, d) ∈ r ↔ ∃ e, Path h k e n ∧ d + 1 = level + e := by
  induction f generalizing level k r n d with
  | zero => cases hr
  | succ f ih =>
    unfold explore at hr
    cases hl : h.lookup k with
    | none => rw [hl] at hr; cases hr
    | some l =>
      rw [hl] at hr
      simp only at hr
      obtain ⟨e1, e2⟩ := exploreList_mem hr
      rw [e2]
      constructor
      · rintro (⟨h1, h2⟩ | ⟨c, h1, h2, r', h3, h4⟩)
        · exact ⟨1, Path.one hl h1, by simp only at h2; omega⟩
        · obtain ⟨e, hp, he⟩ := (ih h3 n d).1 h4
          exact ⟨e + 1, Path.more hl h1 (of_decide_eq_true h2) hp, by omega⟩
      · rintro ⟨e, hp, he⟩
        cases hp with
        | one hk hc =>
          rw [hl] at hk
          cases hk
          exact Or.inl ⟨hc, by simp only; omega⟩
        | more hk hc ha hd =>
          rw [hl] at hk
          cases hk
          obtain ⟨r', hr'⟩ := e1 _ hc (decide_eq_true ha)
          exact Or.inr ⟨_, hc, decide_eq_true ha, r', hr', (ih hr' n d).2 ⟨_, hd, by omega⟩⟩

omit [DecidableEq N] in
theorem firstMax_spec (l : List (N × Nat)) (k : N) (h : firstMax l = some k) : ∃ (i n : Nat), l[i]? = some (k, n) ∧ (∀ p ∈ l, p.2 ≤ n) ∧ ∀ (j : Nat) (p : N × Nat), j < i → l[j]? = some p → p.2 < n := by
  induction l with
  | nil => cases h
  | cons x l ih =>
    obtain ⟨k', n'⟩ := x
    unfold firstMax at h
    split at h
    · rename_i hall
      rw [List.all_eq_true] at hall
      cases h
      refine ⟨0, n', by simp, ?_, by omega⟩
      intro p hp
      rcases List.mem_cons.1 hp with hp | hp
      · rw [hp]
      · exact of_decide_eq_true (hall p hp)
    · rename_i hall
      obtain ⟨i, n, e1, e2, e3⟩ := ih h
      have hlt : n' < n := by
        by_contra hc
        exact hall (List.all_eq_true.2 (fun p hp => decide_eq_true (le_trans (e2 p hp) (by omega))))
      refine ⟨i + 1, n, by simpa using e1, ?_, ?_⟩
      · intro p hp
        rcases List.mem_cons.1 hp with hp | hp
        · rw [hp]; exact hlt.le
        · exact e2 p hp
      · intro j p hj hp
        cases j with
        | zero => simp only [List.getElem?_cons_zero, Option.some.injEq] at hp; rw [← hp]; exact hlt
        | succ j => simp only [List.getElem?_cons_succ] at hp; exact e3 j p (by omega) hp

theorem assigned_mem {l : List (N × Nat)} {n : N} : (∀ d, assigned l n = some d → (n, d) ∈ l) ∧ ((∃ d, (n, d) ∈ l) → ∃ d, assigned l n = some d) := by
  unfold assigned
  have key : ∀ l : List (N × Nat), (∀ d, l.lookup n = some d → (n, d) ∈ l) ∧ ((∃ d, (n, d) ∈ l) → ∃ d, l.lookup n = some d) := by
    intro l
    induction l with
    | nil => simp
    | cons x l ih =>
      obtain ⟨k, v⟩ := x
      rw [List.lookup_cons]
      by_cases e : n = k
      · subst e
        simp
      · rw [show (n == k) = false by simpa using e]
        simp only
        refine ⟨fun d hd => List.mem_cons_of_mem _ (ih.1 d hd), ?_⟩
        rintro ⟨d, hd⟩
        rcases List.mem_cons.1 hd with hd | hd
        · cases hd; exact absurd rfl e
        · exact ih.2 ⟨d, hd⟩
  refine ⟨fun d hd => List.mem_reverse.1 ((key l.reverse).1 d hd), ?_⟩
  rintro ⟨d, hd⟩
  exact (key l.reverse).2 ⟨d, List.mem_reverse.2 hd⟩

/-- C112: the root is the first aggregate with the greatest number of unrolled bottom series. Every series below it gets as level the length of a path from the root, and
no other series gets a level; in a hierarchy where all paths to a series are equally long the level is its depth. -/
theorem C112_levels (h : Hier N) (f : Nat) (l : List (N × Nat)) (hl : levels h f = .ok l) :
    ∃ (flat : List (List N)) (i : Nat) (root : N) (lr : List N), unrollDict h f = .ok flat ∧ (keys h)[i]? = some root ∧ flat[i]? = some lr ∧ (∀ lj ∈ flat, lj.length ≤ lr.length) ∧
      (∀ (j : Nat) lj, j < i → flat[j]? = some lj → lj.length < lr.length) ∧
      ∀ n, (∀ d, assigned l n = some d → (n = root ∧ d = 0) ∨ Path h root d n) ∧ (n = root ∨ (∃ d, Path h root d n) ↔ ∃ d, assigned l n = some d) ∧
        (n ≠ root → ∀ d, (∀ d', Path h root d' n → d' = d) → Path h root d n → assigned l n = some d) := by
  unfold levels at hl
  cases hu : unrollDict h f with
  | error e => rw [hu] at hl; cases hl
  | ok flat =>
    rw [hu] at hl
    simp only at hl
    cases hr : firstMax ((keys h).zip (flat.map List.length)) with
    | none => rw [hr] at hl; cases hl
    | some root =>
      rw [hr] at hl
      simp only at hl
      cases he : explore h f 1 root with
      | error e => rw [he] at hl; cases hl
      | ok le =>
        rw [he] at hl
        cases hl
        have hlen : flat.length = (keys h).length := (mapM_get hu).1
        obtain ⟨i, n0, e1, e2, e3⟩ := firstMax_spec _ _ hr
        rw [List.getElem?_zip_eq_some, List.getElem?_map, Option.map_eq_some_iff] at e1
        obtain ⟨e1, lr, e1', rfl⟩ := e1
        refine ⟨flat, i, root, lr, rfl, e1, e1', ?_, ?_, ?_⟩
        · intro lj hj
          obtain ⟨j, hj⟩ := List.mem_iff_getElem?.1 hj
          have hjlt := (List.getElem?_eq_some_iff.1 hj).1
          refine e2 ((keys h)[j]'(by omega), lj.length) (List.mem_of_getElem? (i := j) ?_)
          rw [List.getElem?_zip_eq_some]
          exact ⟨List.getElem?_eq_getElem _, by rw [List.getElem?_map, hj]; rfl⟩
        · intro j lj hji hj
          have hjlt := (List.getElem?_eq_some_iff.1 hj).1
          refine e3 j ((keys h)[j]'(by omega), lj.length) hji ?_
          rw [List.getElem?_zip_eq_some]
          exact ⟨List.getElem?_eq_getElem _, by rw [List.getElem?_map, hj]; rfl⟩
        · intro n
          have hm : ∀ d, (n, d) ∈ (root, 0) :: le ↔ (n = root ∧ d = 0) ∨ Path h root d n := by
            intro d
            rw [List.mem_cons, explore_mem h he, Prod.mk.injEq]
            constructor
            · rintro (h1 | ⟨e, hp, hd⟩)
              · exact Or.inl h1
              · have : d = e := by omega
                rw [this]; exact Or.inr hp
            · rintro (h1 | hp)
              · exact Or.inl h1
              · exact Or.inr ⟨d, hp, by omega⟩
          have hs : ∀ d, assigned ((root, 0) :: le) n = some d → (n = root ∧ d = 0) ∨ Path h root d n := fun d hd => (hm d).1 (assigned_mem.1 d hd)
          refine ⟨hs, ?_, ?_⟩
          · constructor
            · rintro (h1 | ⟨d, hp⟩)
              · exact assigned_mem.2 ⟨0, (hm 0).2 (Or.inl ⟨h1, rfl⟩)⟩
              · exact assigned_mem.2 ⟨d, (hm d).2 (Or.inr hp)⟩
            · rintro ⟨d, hd⟩
              rcases hs d hd with h1 | h1
              · exact Or.inl h1.1
              · exact Or.inr ⟨d, h1⟩
          · intro hne d huniq hp
            obtain ⟨d', hd'⟩ := assigned_mem.2 ⟨d, (hm d).2 (Or.inr hp)⟩
            rcases hs d' hd' with h1 | h1
            · exact absurd h1.1 hne
            · rw [hd', huniq d' h1]

omit [DecidableEq N] in
/-- Assignments of a list of children: those of the last child come last. -/
theorem exploreList_last {isKey : N → Bool} {g : N → Except PyErr (List (N × Nat))} {level : Nat} {ns : List N} {n : N} {r : List (N × Nat)}
    (hr : exploreList isKey g level (ns ++ [n]) = .ok r) : ∃ r0 l, (if isKey n then g n else .ok []) = .ok l ∧ r = r0 ++ (n, level) :: l := by
  induction ns generalizing r with
  | nil =>
    simp only [List.nil_append] at hr
    unfold exploreList at hr
    cases hd : (if isKey n then g n else .ok []) with
    | error e => rw [hd] at hr; cases hr
    | ok l =>
      rw [hd] at hr
      simp only [exploreList] at hr
      cases hr
      exact ⟨[], l, rfl, by simp⟩
  | cons m ns ih =>
    rw [List.cons_append] at hr
    unfold exploreList at hr
    cases hd : (if isKey m then g m else .ok []) with
    | error e => rw [hd] at hr; cases hr
    | ok l =>
      rw [hd] at hr
      simp only at hr
      cases hq : exploreList isKey g level (ns ++ [n]) with
      | error e => rw [hq] at hr; cases hr
      | ok r1 =>
        rw [hq] at hr
        cases hr
        obtain ⟨r0, l', e1, e2⟩ := ih hq
        exact ⟨(m, level) :: l ++ r0, l', e1, by rw [e2]; simp⟩

theorem assigned_append_of_not_mem {a b : List (N × Nat)} {n : N} {d : Nat} (hb : ∀ e, (n, e) ∉ b) : assigned (a ++ (n, d) :: b) n = some d := by
  unfold assigned
  have key : ∀ (b c : List (N × Nat)), (∀ e, (n, e) ∉ b) → (b ++ (n, d) :: c).lookup n = some d := by
    intro b c
    induction b with
    | nil => intro _; simp
    | cons x b ih =>
      intro hx
      obtain ⟨m, e⟩ := x
      have hne : n ≠ m := fun h => hx e (by rw [h]; simp)
      rw [List.cons_append, List.lookup_cons]
      rw [beq_eq_false_iff_ne.2 hne]
      exact ih (fun e he => hx e (List.mem_cons_of_mem _ he))
  rw [List.reverse_append, List.reverse_cons, List.append_assoc]
  exact key _ _ (fun e he => hb e (List.mem_reverse.1 he))

theorem path_reaches {h : Hier N} {k n : N} {d : Nat} (hp : Path h k d n) (hn : n ∈ keys h) : Reaches h k n := by
  induction hp with
  | one hk hc => exact Reaches.step hk hc hn
  | more hk hc ha hd ih => exact Reaches.more hk hc ha (ih hn)

/-- C112 (several paths): when a series can be reached on paths of different length the assignment made last counts: the last child of the root has level one, even if
it is also listed below another child. -/
theorem C112_last_child (h : Hier N) (f : Nat) (l : List (N × Nat)) (hl : levels h f = .ok l) (root n : N) (ns : List N) (hroot : l.head? = some (root, 0))
    (hc : h.lookup root = some (ns ++ [n])) : assigned l n = some 1 := by
  unfold levels at hl
  cases hu : unrollDict h f with
  | error e => rw [hu] at hl; cases hl
  | ok flat =>
    rw [hu] at hl
    simp only at hl
    cases hr : firstMax ((keys h).zip (flat.map List.length)) with
    | none => rw [hr] at hl; cases hl
    | some root' =>
      rw [hr] at hl
      simp only at hl
      cases he : explore h f 1 root' with
      | error e => rw [he] at hl; cases hl
      | ok le =>
        rw [he] at hl
        cases hl
        simp only [List.head?_cons, Option.some.injEq, Prod.mk.injEq, and_true] at hroot
        subst hroot
        cases f with
        | zero => cases he
        | succ f =>
          unfold explore at he
          rw [hc] at he
          simp only at he
          obtain ⟨r0, l', e1, e2⟩ := exploreList_last he
          rw [e2, ← List.cons_append]
          refine assigned_append_of_not_mem (fun e hm => ?_)
          by_cases hk : n ∈ keys h
          · rw [decide_eq_true hk, if_pos rfl] at e1
            obtain ⟨d, hp, _⟩ := (explore_mem h e1 n e).1 hm
            exact C63_cyclic_refused h n hk (path_reaches hp hk) (f + 1) flat hu
          · rw [decide_eq_false hk] at e1
            simp only [Bool.false_eq_true, if_false] at e1
            cases e1
            simp at hm

end PyF.Recon
