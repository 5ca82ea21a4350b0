import Verif.Recon.Lemmas
import Mathlib.Algebra.BigOperators.Fin
import Mathlib.Algebra.Order.Star.Real
import Mathlib.Algebra.BigOperators.Group.List.Basic

namespace PyF.Recon
open PyF Matrix

variable {N T : Type} [DecidableEq N] [DecidableEq T]

/-! ### C63 -/

theorem unroll_get {h : Hier N} {f : Nat} {flat : List (List N)} (hu : unrollDict h f = .ok flat) {i : Nat} {a : N} (ha : (keys h)[i]? = some a) : ∃ l, flat[i]? = some l ∧ ∀ b, b ∈ l ↔ Below h a b := by
  obtain ⟨l, h1, h2⟩ := (mapM_get hu).2 i a ha
  exact ⟨l, h1, fun b => unrollSub_mem h h2 b⟩

/-- C63 (unrolling): the list of an aggregate contains exactly the bottom series below it. -/
theorem C63_unrolled (h : Hier N) (f : Nat) (flat : List (List N)) (hu : unrollDict h f = .ok flat) :
    flat.length = (keys h).length ∧ ∀ (i : Nat) (a : N), (keys h)[i]? = some a → ∃ l, flat[i]? = some l ∧ ∀ b, b ∈ l ↔ Below h a b :=
  ⟨(mapM_get hu).1, fun _ _ ha => unroll_get hu ha⟩

/-- C63 (success): an acyclic hierarchy without empty aggregates, not deeper than the recursion limit, is unrolled. -/
theorem C63_acyclic_succeeds (h : Hier N) (rank : N → Nat) (f : Nat) (hr : ∀ k l, h.lookup k = some l → l ≠ [] ∧ ∀ c ∈ l, c ∈ keys h → rank c < rank k) (hf : ∀ k ∈ keys h, rank k < f) :
    ∃ flat, unrollDict h f = .ok flat := by
  have key : ∀ (f : Nat) (k : N), k ∈ keys h → rank k < f → ∃ r, unrollSub h f k = .ok r := by
    intro f
    induction f with
    | zero => intro k _ hk; omega
    | succ f ih =>
      intro k hk hlt
      obtain ⟨l, hl⟩ := lookup_of_mem_keys hk
      obtain ⟨hne, hc⟩ := hr k l hl
      unfold unrollSub
      rw [hl]
      cases l with
      | nil => exact absurd rfl hne
      | cons c cs =>
        simp only
        exact gather_ok_of (fun d hd hdk => ih d (of_decide_eq_true hdk) (by have := hc d hd (of_decide_eq_true hdk); omega))
  exact mapM_ok_of (fun k hk => key f k hk (hf k hk))

/-- A path of at least one step between aggregates. -/
inductive Reaches (h : Hier N) : N → N → Prop
  | step {k c : N} {l : List N} (hk : h.lookup k = some l) (hc : c ∈ l) (ha : c ∈ keys h) : Reaches h k c
  | more {k c d : N} {l : List N} (hk : h.lookup k = some l) (hc : c ∈ l) (ha : c ∈ keys h) (hd : Reaches h c d) : Reaches h k d

theorem reaches_ok {h : Hier N} {k c : N} (hR : Reaches h k c) : ∀ (f : Nat) (r : List N), unrollSub h f k = .ok r → ∃ f' < f, ∃ r', unrollSub h f' c = .ok r' := by
  have sub : ∀ (f : Nat) (k c : N) (l r : List N), h.lookup k = some l → c ∈ l → c ∈ keys h → unrollSub h f k = .ok r → ∃ f' < f, ∃ r', unrollSub h f' c = .ok r' := by
    intro f k c l r hk hc ha hr
    cases f with
    | zero => cases hr
    | succ f =>
      unfold unrollSub at hr
      rw [hk] at hr
      cases l with
      | nil => cases hr
      | cons c0 cs =>
        simp only at hr
        exact ⟨f, by omega, gather_ok_sub hr c hc (decide_eq_true ha)⟩
  induction hR with
  | step hk hc ha => intro f r hr; exact sub f _ _ _ r hk hc ha hr
  | more hk hc ha _ ih =>
    intro f r hr
    obtain ⟨f', hf', r', hr'⟩ := sub f _ _ _ r hk hc ha hr
    obtain ⟨f'', hf'', x⟩ := ih f' r' hr'
    exact ⟨f'', by omega, x⟩

/-- C63 (cycles): a hierarchy in which an aggregate is below itself is never unrolled, however deep the recursion may go. -/
theorem C63_cyclic_refused (h : Hier N) (k : N) (hk : k ∈ keys h) (hc : Reaches h k k) (f : Nat) : ∀ flat, unrollDict h f ≠ .ok flat := by
  have key : ∀ (f : Nat) (r : List N), unrollSub h f k ≠ .ok r := by
    intro f
    induction f using Nat.strong_induction_on with
    | _ f ih =>
      intro r hr
      obtain ⟨f', hf', r', hr'⟩ := reaches_ok hc f r hr
      exact ih f' hf' r' hr'
  intro flat hu
  obtain ⟨i, hi⟩ := List.mem_iff_getElem?.1 hk
  obtain ⟨l, _, h2⟩ := (mapM_get hu).2 i k hi
  exact key f l h2

theorem system_fields {h : Hier N} {f : Nat} {cols : List N} {s : Sys N} (hs : system h f cols = .ok s) : s.aggr = keys h ∧ s.bottoms = bottomsOf h cols ∧ unrollDict h f = .ok s.flat := by
  unfold system at hs
  cases hu : unrollDict h f with
  | error e => rw [hu] at hs; cases hs
  | ok flat => rw [hu] at hs; cases hs; exact ⟨rfl, rfl, rfl⟩

open Classical in
/-- C63 (summation matrix): the bottom series are the columns that are not aggregates; the row of an aggregate has ones exactly at the bottom series below it, the
row of a bottom series a single one at itself. -/
theorem C63_summation_matrix (h : Hier N) (f : Nat) (cols : List N) (s : Sys N) (hs : system h f cols = .ok s) :
    s.aggr = keys h ∧ (∀ c, c ∈ s.bottoms ↔ c ∈ cols ∧ c ∉ keys h) ∧ (∀ i j, s.S (.inl i) j = if Below h s.aggr[i] s.bottoms[j] then 1 else 0) ∧ (∀ i j, s.S (.inr i) j = if i = j then 1 else 0) := by
  obtain ⟨h1, h2, h3⟩ := system_fields hs
  refine ⟨h1, ?_, ?_, ?_⟩
  · intro c
    rw [h2]
    unfold bottomsOf
    rw [List.mem_filter, decide_eq_true_eq]
  · intro i j
    have hi : (keys h)[i.1]? = some s.aggr[i] := by
      rw [← h1]
      exact List.getElem?_eq_getElem i.2
    obtain ⟨l, e1, e2⟩ := unroll_get h3 hi
    unfold Sys.S
    rw [Matrix.fromRows_apply_inl]
    unfold Sys.A
    rw [List.getD_eq_getElem?_getD, e1, Option.getD_some]
    by_cases hb : Below h s.aggr[i] s.bottoms[j]
    · rw [if_pos ((e2 _).2 hb), if_pos hb]
    · rw [if_neg (fun hc => hb ((e2 _).1 hc)), if_neg hb]
  · intro i j
    unfold Sys.S
    rw [Matrix.fromRows_apply_inr, Matrix.one_apply]

/-! ### C60 -/

theorem values_split (s : Sys N) (P : Matrix (Fin s.bottoms.length) s.Idx ℝ) (yhat : N → ℝ) :
    (∀ i, s.values P yhat (.inl i) = ∑ j, s.S (.inl i) j * s.values P yhat (.inr j)) ∧ ∀ j, s.values P yhat (.inr j) = (P *ᵥ (fun i => yhat (s.name i))) j := by
  have h2 : ∀ j, s.values P yhat (.inr j) = (P *ᵥ (fun i => yhat (s.name i))) j := by
    intro j
    unfold Sys.values
    rw [← Matrix.mulVec_mulVec]
    unfold Sys.S
    rw [Matrix.fromRows_mulVec, Sum.elim_inr, Matrix.one_mulVec]
  refine ⟨?_, h2⟩
  intro i
  simp only [h2]
  unfold Sys.values
  rw [← Matrix.mulVec_mulVec]
  rfl

theorem zip_lookup {V : Type} {l : List N} {v : List V} (hnd : l.Nodup) {i : Nat} {a : N} {x : V} (ha : l[i]? = some a) (hx : v[i]? = some x) : (l.zip v).lookup a = some x := by
  induction l generalizing i v with
  | nil => simp at ha
  | cons b l ih =>
    cases v with
    | nil => simp at hx
    | cons w v =>
      rw [List.nodup_cons] at hnd
      rw [List.zip_cons_cons, List.lookup_cons]
      cases i with
      | zero =>
        simp only [List.getElem?_cons_zero, Option.some.injEq] at ha hx
        subst ha hx
        simp
      | succ i =>
        simp only [List.getElem?_cons_succ] at ha hx
        have : a ≠ b := by
          intro e
          subst e
          exact hnd.1 (List.mem_of_getElem? ha)
        rw [show (a == b) = false by simpa using this]
        exact ih hnd.2 ha hx

/-- Position of an index in `ordered_cols`. -/
def pos (s : Sys N) : s.Idx → Nat := Sum.elim (fun i => i.1) (fun j => s.aggr.length + j.1)

omit [DecidableEq N] in
theorem ordered_get (s : Sys N) (i : s.Idx) : (s.aggr ++ s.bottoms)[pos s i]? = some (s.name i) := by
  cases i with
  | inl i =>
    change (s.aggr ++ s.bottoms)[i.1]? = some s.aggr[i]
    rw [List.getElem?_append_left i.2]
    exact List.getElem?_eq_getElem i.2
  | inr j =>
    change (s.aggr ++ s.bottoms)[s.aggr.length + j.1]? = some s.bottoms[j]
    rw [List.getElem?_append_right (by omega), Nat.add_sub_cancel_left]
    exact List.getElem?_eq_getElem j.2

theorem valueList_get (s : Sys N) (P : Matrix (Fin s.bottoms.length) s.Idx ℝ) (yhat : N → ℝ) (i : s.Idx) : (s.valueList P yhat)[pos s i]? = some (s.values P yhat i) := by
  unfold Sys.valueList
  cases i with
  | inl i =>
    change (_ ++ _)[i.1]? = _
    rw [List.getElem?_append_left (by rw [List.length_ofFn]; exact i.2), List.getElem?_ofFn]
    simp
  | inr j =>
    change (_ ++ _)[s.aggr.length + j.1]? = _
    rw [List.getElem?_append_right (by rw [List.length_ofFn]; omega), List.length_ofFn, Nat.add_sub_cancel_left, List.getElem?_ofFn]
    simp

omit [DecidableEq N] in
theorem pos_surj (s : Sys N) {p : Nat} (hp : p < (s.aggr ++ s.bottoms).length) : ∃ i, pos s i = p := by
  rw [List.length_append] at hp
  by_cases h : p < s.aggr.length
  · exact ⟨.inl ⟨p, h⟩, rfl⟩
  · exact ⟨.inr ⟨p - s.aggr.length, by omega⟩, by simp only [pos, Sum.elim_inr]; omega⟩

theorem valueList_length (s : Sys N) (P : Matrix (Fin s.bottoms.length) s.Idx ℝ) (yhat : N → ℝ) : (s.valueList P yhat).length = (s.aggr ++ s.bottoms).length := by
  unfold Sys.valueList
  rw [List.length_append, List.length_append, List.length_ofFn, List.length_ofFn]

open Classical in
/-- Specification: in a labelled row every aggregate is the sum of the series below it. -/
def CoherentRow (h : Hier N) (l : List (N × ℝ)) : Prop := ∀ a ∈ keys h, ∃ va, l.lookup a = some va ∧ va = ((l.filter (fun p => decide (Below h a p.1))).map (·.2)).sum

theorem filter_map_sum {V : Type} (l : List V) (p : V → Bool) (g : V → ℝ) : ((l.filter p).map g).sum = (l.map (fun x => if p x = true then g x else 0)).sum := by
  induction l with
  | nil => rfl
  | cons x l ih =>
    rw [List.filter_cons]
    by_cases hx : p x = true
    · rw [if_pos hx, List.map_cons, List.map_cons, List.sum_cons, List.sum_cons, ih, if_pos hx]
    · rw [if_neg hx, List.map_cons, List.sum_cons, ih, if_neg hx, zero_add]

omit [DecidableEq N] in
theorem zip_ofFn {V : Type} (l : List N) (g : Fin l.length → V) : l.zip (List.ofFn g) = List.ofFn (fun j : Fin l.length => (l[j], g j)) := by
  apply List.ext_getElem?
  intro i
  by_cases hi : i < l.length
  · rw [List.getElem?_eq_getElem (by simp [hi]), List.getElem?_eq_getElem (by simp [hi])]
    simp
  · rw [List.getElem?_eq_none (by simp; omega), List.getElem?_eq_none (by simp; omega)]

theorem below_not_key {h : Hier N} {a b : N} (hb : Below h a b) : b ∉ keys h := by
  induction hb with
  | child _ _ hb => exact hb
  | deep _ _ _ _ ih => exact ih

open Classical in
/-- The sum of the values of the series below an aggregate, in a row labelled in the order of the object. -/
theorem coherent_sum {h : Hier N} {f : Nat} {cols : List N} {s : Sys N} (hs : system h f cols = .ok s) (w : s.Idx → ℝ) (i : Fin s.aggr.length) :
    ((((s.aggr ++ s.bottoms).zip (List.ofFn (fun i => w (.inl i)) ++ List.ofFn (fun j => w (.inr j)))).filter (fun p => decide (Below h s.aggr[i] p.1))).map (·.2)).sum = ∑ j, s.S (.inl i) j * w (.inr j) := by
  obtain ⟨h1, h2, _⟩ := system_fields hs
  rw [List.zip_append (by rw [List.length_ofFn]), List.filter_append]
  have h0 : (s.aggr.zip (List.ofFn (fun i => w (.inl i)))).filter (fun p => decide (Below h s.aggr[i] p.1)) = [] := by
    rw [List.filter_eq_nil_iff]
    rintro ⟨a, v⟩ hm
    have := (List.of_mem_zip hm).1
    rw [h1] at this
    rw [decide_eq_true_eq]
    exact fun hb => below_not_key hb this
  rw [h0, List.nil_append, filter_map_sum, zip_ofFn, List.map_ofFn, List.sum_ofFn]
  apply Finset.sum_congr rfl
  intro j _
  rw [(C63_summation_matrix h f cols s hs).2.2.1 i j]
  simp only [Function.comp, decide_eq_true_eq]
  split <;> ring

/-- C60 (values): whatever the base forecasts and whatever matrix was fitted, reconciled values under the names of the object are coherent. -/
theorem C60_values_coherent (h : Hier N) (f : Nat) (cols : List N) (s : Sys N) (hs : system h f cols = .ok s) (hk : (keys h).Nodup) (hc : cols.Nodup) (P : Matrix (Fin s.bottoms.length) s.Idx ℝ) (yhat : N → ℝ) :
    CoherentRow h ((s.aggr ++ s.bottoms).zip (s.valueList P yhat)) := by
  obtain ⟨h1, h2, _⟩ := system_fields hs
  have hnd : (s.aggr ++ s.bottoms).Nodup := by
    rw [h1, h2]
    refine List.Nodup.append hk (hc.filter _) ?_
    intro a ha hb
    unfold bottomsOf at hb
    rw [List.mem_filter, decide_eq_true_eq] at hb
    exact hb.2 ha
  intro a ha
  rw [← h1] at ha
  obtain ⟨i, hi, he⟩ := List.mem_iff_getElem.1 ha
  subst he
  refine ⟨s.values P yhat (.inl ⟨i, hi⟩), ?_, ?_⟩
  · exact zip_lookup hnd (ordered_get s (.inl ⟨i, hi⟩)) (valueList_get s P yhat (.inl ⟨i, hi⟩))
  · rw [(values_split s P yhat).1]
    exact (coherent_sum hs (s.values P yhat) ⟨i, hi⟩).symm

theorem firsts_spec (l : List N) : (firsts l).Nodup ∧ ∀ x, x ∈ firsts l ↔ x ∈ l := by
  induction l with
  | nil => simp [firsts]
  | cons a l ih =>
    unfold firsts
    constructor
    · rw [List.nodup_cons]
      exact ⟨by simp, ih.1.filter _⟩
    · intro x
      simp only [List.mem_cons, List.mem_filter, decide_eq_true_eq, ih.2]
      tauto

theorem order_nodup {h : Hier N} (hk : (keys h).Nodup) (names : List N) : (order h names).Nodup := by
  refine List.Nodup.append hk ((firsts_spec names).1.filter _) ?_
  intro a ha hb
  rw [List.mem_filter, decide_eq_true_eq] at hb
  exact hb.2 ha

theorem bottoms_order (h : Hier N) (names : List N) : keys h ++ bottomsOf h (order h names) = order h names := by
  unfold bottomsOf order
  rw [List.filter_append, List.filter_filter]
  have : (keys h).filter (fun c => decide (c ∉ keys h)) = [] := by
    rw [List.filter_eq_nil_iff]
    intro a ha
    simp [ha]
  rw [this, List.nil_append]
  simp

/-- The system of a fitted object, and its relation with the columns. -/
theorem fit_system {h : Hier N} {f : Nat} {names : List N} {W : (s : Sys N) → T → Matrix s.Idx s.Idx ℝ} {y yhat : T → Nat → N → ℝ} {targets : List T} {m : Fitted N T}
    (hm : fit h f names W y yhat targets = .ok m) : checkX h names = true ∧ system h f (order h names) = .ok m.s ∧ m.s.aggr ++ m.s.bottoms = order h names := by
  unfold fit at hm
  cases hu : unrollDict h f with
  | error e => rw [hu] at hm; cases hm
  | ok flat =>
    rw [hu] at hm
    simp only at hm
    split at hm
    · rename_i hx
      cases hs : system h f (order h names) with
      | error e => rw [hs] at hm; cases hm
      | ok s =>
        rw [hs] at hm
        simp only at hm
        have key : ∀ (ts : List T) (P : Matrix (Fin s.bottoms.length) s.Idx ℝ) (errs : T → Nat → N → ℝ), fitLoop s (W s) (order h names) y yhat ts P errs = .ok m → m.s = s := by
          intro ts
          induction ts with
          | nil => intro P errs he; cases he; rfl
          | cons t ts ih =>
            intro P errs he
            unfold fitLoop at he
            cases hP : s.fitP (W s t) with
            | error e => rw [hP] at he; cases he
            | ok P' =>
              rw [hP] at he
              simp only at he
              cases hc : s.check (order h names) with
              | error e => rw [hc] at he; cases he
              | ok u => rw [hc] at he; exact ih _ _ he
        have := key targets _ _ hm
        rw [this]
        refine ⟨hx, rfl, ?_⟩
        obtain ⟨e1, e2, _⟩ := system_fields hs
        rw [e1, e2, bottoms_order]
    · cases hm

theorem check_self (s : Sys N) : s.check (s.aggr ++ s.bottoms) = .ok () := by
  unfold Sys.check
  rw [if_pos (by rw [List.all_eq_true]; intro x hx; exact decide_eq_true hx), if_pos rfl]

/-- C60 (predict): a frame in which the series appear in the order of the training frame is predicted, and every row is coherent, for every method, weight matrix and base forecast. -/
theorem C60_predict_coherent (h : Hier N) (hk : (keys h).Nodup) (f : Nat) (names names' : List N) (W : (s : Sys N) → T → Matrix s.Idx s.Idx ℝ) (y yhat : T → Nat → N → ℝ) (targets : List T) (m : Fitted N T)
    (hm : fit h f names W y yhat targets = .ok m) (hx : checkX h names' = true) (ho : order h names' = order h names) (row : N → ℝ) :
    ∃ l, predict h m names' row = .ok l ∧ l.map (·.1) = order h names ∧ CoherentRow h l := by
  obtain ⟨_, hs, hord⟩ := fit_system hm
  unfold predict Sys.reconcile
  rw [if_pos hx, ho, ← hord, check_self]
  refine ⟨_, rfl, ?_, C60_values_coherent h f _ m.s hs hk (order_nodup hk names) m.P row⟩
  rw [List.map_fst_zip]
  rw [valueList_length]

/-! ### C61 -/

theorem S_injective (s : Sys N) : Function.Injective s.S.mulVec := by
  intro a b hab
  unfold Sys.S at hab
  rw [Matrix.fromRows_mulVec, Matrix.fromRows_mulVec, Matrix.one_mulVec, Matrix.one_mulVec] at hab
  funext j
  have := congrFun hab (.inr j)
  simpa using this

theorem fitP_left_inv {s : Sys N} {W : Matrix s.Idx s.Idx ℝ} {P : Matrix (Fin s.bottoms.length) s.Idx ℝ} (h : s.fitP W = .ok P) : P * s.S = 1 ∧ (s.Sᵀ * W * s.S).det ≠ 0 ∧ P = (s.Sᵀ * W * s.S)⁻¹ * (s.Sᵀ * W) := by
  unfold Sys.fitP at h
  split at h
  · cases h
  · rename_i hd
    cases h
    exact ⟨left_inv _ _ hd, hd, rfl⟩

/-- C61 (fit succeeds): for a positive definite weight matrix, in particular for the identity. -/
theorem C61_positive_definite_fits (s : Sys N) (W : Matrix s.Idx s.Idx ℝ) (hW : W.PosDef) : (∃ P, s.fitP W = .ok P) ∧ ∃ P, s.fitP 1 = .ok P := by
  have key : ∀ W : Matrix s.Idx s.Idx ℝ, W.PosDef → ∃ P, s.fitP W = .ok P := by
    intro W hW
    unfold Sys.fitP
    rw [if_neg (det_ne_zero_of_posDef s.S W hW (S_injective s))]
    exact ⟨_, rfl⟩
  exact ⟨key W hW, key 1 Matrix.PosDef.one⟩

open Classical in
/-- C61 (projection): base forecasts that are already coherent are returned unchanged; reconciling the result again changes nothing. -/
theorem C61_projection (h : Hier N) (f : Nat) (cols : List N) (s : Sys N) (hs : system h f cols = .ok s) (W : Matrix s.Idx s.Idx ℝ) (P : Matrix (Fin s.bottoms.length) s.Idx ℝ) (hP : s.fitP W = .ok P)
    (yhat : N → ℝ) :
    ((∀ a ∈ keys h, yhat a = ((s.bottoms.filter (fun b => decide (Below h a b))).map yhat).sum) → ∀ i, s.values P yhat i = yhat (s.name i)) ∧
      ∀ again : N → ℝ, (∀ i, again (s.name i) = s.values P yhat i) → s.values P again = s.values P yhat := by
  obtain ⟨hPS, _, _⟩ := fitP_left_inv hP
  have proj : ∀ b : Fin s.bottoms.length → ℝ, (s.S * P) *ᵥ (s.S *ᵥ b) = s.S *ᵥ b := by
    intro b
    rw [Matrix.mulVec_mulVec, Matrix.mul_assoc, hPS, Matrix.mul_one]
  constructor
  · intro hc
    have hy : (fun i => yhat (s.name i)) = s.S *ᵥ (fun j => yhat s.bottoms[j]) := by
      funext i
      cases i with
      | inl i =>
        have hi : s.aggr[i] ∈ keys h := by
          rw [← (system_fields hs).1]
          exact List.getElem_mem i.2
        change yhat s.aggr[i] = ∑ j, s.S (.inl i) j * yhat s.bottoms[j]
        rw [hc _ hi, filter_map_sum, ← List.sum_ofFn]
        congr 1
        apply List.ext_getElem
        · simp
        · intro k hk1 hk2
          have hk : k < s.bottoms.length := by simpa using hk1
          rw [List.getElem_map, List.getElem_ofFn, (C63_summation_matrix h f cols s hs).2.2.1 i ⟨k, hk⟩]
          simp only [decide_eq_true_eq, Fin.getElem_fin]
          split <;> ring
      | inr j =>
        change yhat s.bottoms[j] = ∑ k, s.S (.inr j) k * yhat s.bottoms[k]
        simp only [(C63_summation_matrix h f cols s hs).2.2.2]
        simp
    intro i
    unfold Sys.values
    rw [hy, proj, ← hy]
  · intro again ha
    unfold Sys.values at ha ⊢
    rw [show (fun i => again (s.name i)) = (s.S * P) *ᵥ (fun i => yhat (s.name i)) from funext ha,
      show (s.S * P) *ᵥ (fun i => yhat (s.name i)) = s.S *ᵥ (P *ᵥ (fun i => yhat (s.name i))) from (Matrix.mulVec_mulVec _ _ _).symm, proj]

/-- C61 (least squares): for a positive definite weight matrix the reconciled row is the coherent row closest to the base forecasts. -/
theorem C61_closest_coherent (s : Sys N) (W : Matrix s.Idx s.Idx ℝ) (hW : W.PosDef) (P : Matrix (Fin s.bottoms.length) s.Idx ℝ) (hP : s.fitP W = .ok P) (yhat : N → ℝ) (b : Fin s.bottoms.length → ℝ) :
    ((fun i => yhat (s.name i)) - s.values P yhat) ⬝ᵥ W *ᵥ ((fun i => yhat (s.name i)) - s.values P yhat) ≤
      ((fun i => yhat (s.name i)) - s.S *ᵥ b) ⬝ᵥ W *ᵥ ((fun i => yhat (s.name i)) - s.S *ᵥ b) := by
  obtain ⟨_, hd, he⟩ := fitP_left_inv hP
  unfold Sys.values
  rw [he]
  exact optimal s.S W hW hd _ b

/-- C61 (fit succeeds): so does fitting, for every sequence of steps, if the hierarchy can be unrolled and all aggregates are in the frame. -/
theorem C61_fit_succeeds (h : Hier N) (f : Nat) (flat : List (List N)) (hu : unrollDict h f = .ok flat) (names : List N) (hx : ∀ k ∈ keys h, k ∈ names) (W : (s : Sys N) → T → Matrix s.Idx s.Idx ℝ)
    (hW : ∀ s t, (W s t).PosDef) (y yhat : T → Nat → N → ℝ) (targets : List T) : ∃ m, fit h f names W y yhat targets = .ok m := by
  unfold fit
  have hs : system h f (order h names) = .ok ⟨keys h, flat, bottomsOf h (order h names)⟩ := by
    unfold system
    rw [hu]
  rw [hs, hu]
  simp only
  rw [if_pos (show checkX h names = true by unfold checkX; rw [List.all_eq_true]; exact fun k hk => decide_eq_true (hx k hk))]
  generalize hS : (⟨keys h, flat, bottomsOf h (order h names)⟩ : Sys N) = s
  have hord : s.aggr ++ s.bottoms = order h names := by rw [← hS]; exact bottoms_order h names
  generalize (0 : Matrix (Fin s.bottoms.length) s.Idx ℝ) = P
  generalize (fun (_ : T) (_ : Nat) (_ : N) => (0 : ℝ)) = errs
  induction targets generalizing P errs with
  | nil => exact ⟨_, rfl⟩
  | cons t ts ih =>
    unfold fitLoop
    obtain ⟨P', hP'⟩ := (C61_positive_definite_fits s (W s t) (hW s t)).1
    rw [hP', ← hord, check_self]
    simp only
    rw [hord]
    exact ih _ _

/-! ### C64 -/

theorem fitLoop_spec (s : Sys N) (W : T → Matrix s.Idx s.Idx ℝ) (cols : List N) (y yhat : T → Nat → N → ℝ) :
    ∀ (ts : List T) (P : Matrix (Fin s.bottoms.length) s.Idx ℝ) (errs : T → Nat → N → ℝ) (m : Fitted N T), ts.Nodup → fitLoop s W cols y yhat ts P errs = .ok m →
      ∃ P', m = ⟨s, P', m.errs⟩ ∧ (ts = [] → P' = P) ∧ (∀ t, ts.getLast? = some t → s.fitP (W t) = .ok P') ∧
        (∀ t ∈ ts, ∃ Pt, s.fitP (W t) = .ok Pt ∧ m.errs t = stepErrs s Pt cols (y t) (yhat t)) ∧ ∀ t, t ∉ ts → m.errs t = errs t := by
  intro ts
  induction ts with
  | nil => intro P errs m _ he; cases he; exact ⟨P, rfl, fun _ => rfl, by simp, by simp, by simp⟩
  | cons t ts ih =>
    intro P errs m hnd he
    unfold fitLoop at he
    cases hP : s.fitP (W t) with
    | error e => rw [hP] at he; cases he
    | ok P1 =>
      rw [hP] at he
      simp only at he
      cases hc : s.check cols with
      | error e => rw [hc] at he; cases he
      | ok u =>
        rw [hc] at he
        simp only at he
        rw [List.nodup_cons] at hnd
        obtain ⟨P', e1, e2, e3, e4, e5⟩ := ih P1 _ m hnd.2 he
        refine ⟨P', e1, by simp, ?_, ?_, ?_⟩
        · intro t' ht'
          cases ts with
          | nil =>
            simp only [List.getLast?_singleton, Option.some.injEq] at ht'
            subst ht'
            rw [e2 rfl]; exact hP
          | cons t2 ts =>
            rw [List.getLast?_cons_cons] at ht'
            exact e3 t' ht'
        · intro t' ht'
          rcases List.mem_cons.1 ht' with h | h
          · subst h
            refine ⟨P1, hP, ?_⟩
            rw [e5 _ hnd.1, if_pos rfl]
          · exact e4 t' h
        · intro t' ht'
          rw [List.mem_cons, not_or] at ht'
          rw [e5 t' ht'.2, if_neg ht'.1]

/-- C64: prediction reconciles every step with the matrix fitted for the last one, while the training errors of a step are those of the matrix fitted for it. A step is
reconciled as fitted, for all base forecasts, iff its matrix equals the last one. -/
theorem C64_last_matrix (h : Hier N) (hk : (keys h).Nodup) (f : Nat) (names : List N) (W : (s : Sys N) → T → Matrix s.Idx s.Idx ℝ) (y yhat : T → Nat → N → ℝ) (ts : List T) (last : T) (hnd : (ts ++ [last]).Nodup)
    (m : Fitted N T) (hm : fit h f names W y yhat (ts ++ [last]) = .ok m) :
    m.s.fitP (W m.s last) = .ok m.P ∧ (∀ row, predict h m names row = .ok ((order h names).zip (m.s.valueList m.P row))) ∧
      ∀ t ∈ ts ++ [last], ∃ Pt, m.s.fitP (W m.s t) = .ok Pt ∧
        (∀ r i, m.errs t r (m.s.name i) = y t r (m.s.name i) - m.s.values Pt (yhat t r) i) ∧ ((∀ row, m.s.values m.P row = m.s.values Pt row) ↔ m.P = Pt) := by
  obtain ⟨hx, hs, hord⟩ := fit_system hm
  unfold fit at hm
  rw [(system_fields hs).2.2] at hm
  simp only at hm
  rw [if_pos hx, hs] at hm
  simp only at hm
  obtain ⟨P', e1, _, e3, e4, _⟩ := fitLoop_spec m.s (W m.s) (order h names) y yhat _ _ _ m hnd hm
  have hPP : m.P = P' := by
    have : HEq m.P P' := by
      have := congrArg (fun z : Fitted N T => (⟨z.s, z.P⟩ : (s : Sys N) × Matrix (Fin s.bottoms.length) s.Idx ℝ)) e1
      simp only [Sigma.mk.injEq, heq_eq_eq, true_and] at this
      exact heq_of_eq this
    exact eq_of_heq this
  refine ⟨?_, ?_, ?_⟩
  · rw [hPP]; exact e3 last (by simp)
  · intro row
    unfold predict Sys.reconcile
    rw [if_pos hx, ← hord, check_self]
  · intro t ht
    obtain ⟨Pt, hPt, herr⟩ := e4 t ht
    refine ⟨Pt, hPt, ?_, ?_⟩
    · intro r i
      rw [herr]
      unfold stepErrs
      rw [← hord, zip_lookup (by rw [hord]; exact order_nodup hk names) (ordered_get m.s i) (valueList_get m.s Pt (yhat t r) i), Option.getD_some]
    · constructor
      · intro hrow
        have hname : Function.Injective m.s.name := by
          have hnd' : (m.s.aggr ++ m.s.bottoms).Nodup := by rw [hord]; exact order_nodup hk names
          intro i j hij
          have hp : pos m.s i = pos m.s j := by
            have h1 := ordered_get m.s i
            rw [hij, ← ordered_get m.s j] at h1
            exact (List.getElem?_inj (List.getElem?_eq_some_iff.1 (ordered_get m.s i)).1 hnd').1 h1
          cases i with
          | inl i => cases j with
            | inl j => congr 1; exact Fin.ext hp
            | inr j => simp only [pos, Sum.elim_inl, Sum.elim_inr] at hp; have := i.2; omega
          | inr i => cases j with
            | inl j => simp only [pos, Sum.elim_inl, Sum.elim_inr] at hp; have := j.2; omega
            | inr j => simp only [pos, Sum.elim_inr] at hp; congr 1; exact Fin.ext (by omega)
        have hall : ∀ v : m.s.Idx → ℝ, m.P *ᵥ v = Pt *ᵥ v := by
          intro v
          classical
          have hrow' := hrow (Function.extend m.s.name v 0)
          funext j
          have e := congrFun hrow' (.inr j)
          rw [(values_split m.s m.P _).2, (values_split m.s Pt _).2] at e
          have hv : (fun i => Function.extend m.s.name v 0 (m.s.name i)) = v := by
            funext i
            exact hname.extend_apply v 0 i
          rw [hv] at e
          exact e
        exact Matrix.mulVec_injective (funext hall)
      · intro e row
        rw [e]

end PyF.Recon
