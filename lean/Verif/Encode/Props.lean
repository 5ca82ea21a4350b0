import Verif.Encode.Model
import Mathlib.Tactic.Linarith

/-!
Properties C13 and C14: categorical encoding over the life of a forecaster.
-/

namespace PyF.Encode
open PyF

variable {N κ : Type} [DecidableEq N] [LinearOrder κ]

/-! ### Helper lemmas -/

theorem mem_fitClasses {v : List κ} {s : κ} : s ∈ fitClasses v ↔ s ∈ v := by
  simp [fitClasses]

theorem fitClasses_sorted (v : List κ) : (fitClasses v).Pairwise (· < ·) := by
  have h1 : (fitClasses v).Pairwise (· ≤ ·) := List.pairwise_insertionSort _ _
  have h2 : (fitClasses v).Nodup := (List.perm_insertionSort _ _).nodup_iff.2 (List.nodup_dedup v)
  exact (h1.and h2).imp (fun h => lt_of_le_of_ne h.1 h.2)

/-- All stored class lists are strictly sorted. -/
def Sorted (le : Encoders N κ) : Prop := ∀ n cl, le.lookup n = some cl → cl.Pairwise (· < ·)

omit [LinearOrder κ] in
theorem lookup_cons_self (le : Encoders N κ) (n : N) (cl : List κ) :
    List.lookup n ((n, cl) :: le) = some cl := by simp [List.lookup]

omit [LinearOrder κ] in
theorem lookup_cons_ne (le : Encoders N κ) {n m : N} (cl : List κ) (h : m ≠ n) :
    List.lookup m ((n, cl) :: le) = List.lookup m le := by
  have : (m == n) = false := by simpa using h
  simp [List.lookup, this]

theorem encodeCol_keeps {le le' : Encoders N κ} {n : N} {c c' : Col κ}
    (h : encodeCol le n c = .ok (le', c')) (m : N) (cl : List κ) (hm : le.lookup m = some cl) :
    le'.lookup m = some cl := by
  cases c with
  | num v => simp only [encodeCol, Except.ok.injEq, Prod.mk.injEq] at h; rw [← h.1]; exact hm
  | obj v =>
    cases hl : le.lookup n with
    | none =>
      simp only [encodeCol, hl, Except.ok.injEq, Prod.mk.injEq] at h
      rw [← h.1, lookup_cons_ne]
      · exact hm
      · rintro rfl; rw [hl] at hm; cases hm
    | some cl' =>
      simp only [encodeCol, hl] at h
      split at h
      · simp only [Except.ok.injEq, Prod.mk.injEq] at h; rw [← h.1]; exact hm
      · cases h

theorem encodeCol_sorted {le le' : Encoders N κ} {n : N} {c c' : Col κ}
    (h : encodeCol le n c = .ok (le', c')) (hs : Sorted le) : Sorted le' := by
  cases c with
  | num v => simp only [encodeCol, Except.ok.injEq, Prod.mk.injEq] at h; rw [← h.1]; exact hs
  | obj v =>
    cases hl : le.lookup n with
    | none =>
      simp only [encodeCol, hl, Except.ok.injEq, Prod.mk.injEq] at h
      rw [← h.1]
      intro m cl hm
      by_cases hmn : m = n
      · subst hmn
        rw [lookup_cons_self] at hm
        rw [← Option.some.inj hm]
        exact fitClasses_sorted v
      · rw [lookup_cons_ne _ _ hmn] at hm; exact hs m cl hm
    | some cl' =>
      simp only [encodeCol, hl] at h
      split at h
      · simp only [Except.ok.injEq, Prod.mk.injEq] at h; rw [← h.1]; exact hs
      · cases h

theorem encode_keeps (le : Encoders N κ) (f : List (N × Col κ)) (m : N) (cl : List κ)
    (hm : le.lookup m = some cl) : (encode le f).le.lookup m = some cl := by
  induction f generalizing le with
  | nil => exact hm
  | cons e f ih =>
    obtain ⟨n, c⟩ := e
    cases h : encodeCol le n c with
    | error e => simp only [encode, h]; exact hm
    | ok p =>
      obtain ⟨le', c'⟩ := p
      simp only [encode, h]
      exact ih le' (encodeCol_keeps h m cl hm)

theorem encode_sorted (le : Encoders N κ) (f : List (N × Col κ)) (hs : Sorted le) :
    Sorted (encode le f).le := by
  induction f generalizing le with
  | nil => exact hs
  | cons e f ih =>
    obtain ⟨n, c⟩ := e
    cases h : encodeCol le n c with
    | error e => simp only [encode, h]; exact hs
    | ok p =>
      obtain ⟨le', c'⟩ := p
      simp only [encode, h]
      exact ih le' (encodeCol_sorted h hs)

theorem history_keeps (le : Encoders N κ) (fs : List (List (N × Col κ))) (m : N) (cl : List κ)
    (hm : le.lookup m = some cl) : (history le fs).lookup m = some cl := by
  induction fs generalizing le with
  | nil => exact hm
  | cons f fs ih => exact ih _ (encode_keeps le f m cl hm)

theorem history_sorted (le : Encoders N κ) (fs : List (List (N × Col κ))) (hs : Sorted le) :
    Sorted (history le fs) := by
  induction fs generalizing le with
  | nil => exact hs
  | cons f fs ih => exact ih _ (encode_sorted le f hs)

/-- What a successful call does to each column. -/
theorem encode_ok_columns (le : Encoders N κ) (f : List (N × Col κ)) (h : (encode le f).err = none)
    (p : Nat) (n : N) (v : List κ) (hp : f[p]? = some (n, .obj v)) :
    ∃ cl, (encode le f).le.lookup n = some cl ∧ (∀ s ∈ v, s ∈ cl) ∧
      (encode le f).frame[p]? = some (n, .num (codes cl v)) := by
  induction f generalizing le p with
  | nil => simp at hp
  | cons e f ih =>
    obtain ⟨n0, c0⟩ := e
    cases hc : encodeCol le n0 c0 with
    | error e => simp [encode, hc] at h
    | ok q =>
      obtain ⟨le', c'⟩ := q
      simp only [encode, hc] at h ⊢
      cases p with
      | succ p =>
        rw [List.getElem?_cons_succ] at hp ⊢
        exact ih le' h p hp
      | zero =>
        simp only [List.getElem?_cons_zero, Option.some.injEq, Prod.mk.injEq] at hp ⊢
        obtain ⟨rfl, rfl⟩ := hp
        cases hl : le.lookup n0 with
        | none =>
          simp only [encodeCol, hl, Except.ok.injEq, Prod.mk.injEq] at hc
          refine ⟨fitClasses v, encode_keeps le' f n0 _ ?_, fun s hs => mem_fitClasses.2 hs, rfl, hc.2.symm⟩
          rw [← hc.1, lookup_cons_self]
        | some cl =>
          simp only [encodeCol, hl] at hc
          split at hc
          · next hall =>
            simp only [Except.ok.injEq, Prod.mk.injEq] at hc
            refine ⟨cl, encode_keeps le' f n0 _ (by rw [← hc.1]; exact hl), ?_, rfl, hc.2.symm⟩
            intro s hs
            simpa using List.all_eq_true.1 hall s hs
          · cases hc

theorem idxOf_lt_iff {cl : List κ} (hs : cl.Pairwise (· < ·)) {a b : κ} (ha : a ∈ cl) (hb : b ∈ cl) :
    cl.idxOf a < cl.idxOf b ↔ a < b := by
  have hla := List.idxOf_lt_length_iff.2 ha
  have hlb := List.idxOf_lt_length_iff.2 hb
  have ga : cl[cl.idxOf a] = a := List.getElem_idxOf hla
  have gb : cl[cl.idxOf b] = b := List.getElem_idxOf hlb
  have key : ∀ i j (hi : i < cl.length) (hj : j < cl.length), i < j → cl[i] < cl[j] :=
    fun i j hi hj hij => List.pairwise_iff_getElem.1 hs i j hi hj hij
  constructor
  · intro h
    have := key _ _ hla hlb h
    rwa [ga, gb] at this
  · intro h
    rcases Nat.lt_trichotomy (cl.idxOf a) (cl.idxOf b) with h' | h' | h'
    · exact h'
    · exfalso
      have : a = b := by rw [← ga, ← gb]; congr 1
      exact absurd this (ne_of_lt h)
    · exfalso
      have := key _ _ hlb hla h'
      rw [ga, gb] at this
      exact absurd h (not_lt.2 this.le)

/-! ### Properties -/

/-- **C13 (a).** Start from a fresh forecaster and any history of calls. Take two successful calls, the
second after any further history (in which calls may fail), and a column that is categorical in both.
Codes are numbers below the number of categories known for the column, and across the two calls they
compare exactly as the category strings do: equal codes iff equal categories, smaller code iff smaller
category. -/
theorem C13_codes_stable (before middle : List (List (N × Col κ))) (f g : List (N × Col κ))
    (hf : (encode (history [] before) f).err = none)
    (hg : (encode (history (encode (history [] before) f).le middle) g).err = none)
    (n : N) (p q : Nat) (v w : List κ) (hp : f[p]? = some (n, .obj v)) (hq : g[q]? = some (n, .obj w)) :
    ∃ (cl : List κ) (cv cw : List Nat),
      (encode (history [] before) f).frame[p]? = some (n, .num cv) ∧
      (encode (history (encode (history [] before) f).le middle) g).frame[q]? = some (n, .num cw) ∧
      cv.length = v.length ∧ cw.length = w.length ∧
      (∀ c ∈ cv, c < cl.length) ∧ (∀ c ∈ cw, c < cl.length) ∧
      (encode (history (encode (history [] before) f).le middle) g).le.lookup n = some cl ∧
      ∀ (i j : Nat) (a b : κ) (ca cb : Nat), v[i]? = some a → w[j]? = some b → cv[i]? = some ca → cw[j]? = some cb →
        (ca = cb ↔ a = b) ∧ (ca < cb ↔ a < b) := by
  set le0 := history ([] : Encoders N κ) before with hle0
  have hs0 : Sorted le0 := history_sorted _ _ (by intro n cl h; simp [List.lookup] at h)
  obtain ⟨cl, h1, h2, h3⟩ := encode_ok_columns le0 f hf p n v hp
  set le1 := (encode le0 f).le with hle1
  set le2 := history le1 middle with hle2
  obtain ⟨cl', h1', h2', h3'⟩ := encode_ok_columns le2 g hg q n w hq
  have hcl : cl' = cl := by
    have := encode_keeps le2 g n cl (history_keeps le1 middle n cl h1)
    rw [h1'] at this
    exact Option.some.inj this
  subst hcl
  have hsorted : cl'.Pairwise (· < ·) := encode_sorted le0 f hs0 n cl' h1
  refine ⟨cl', _, _, h3, h3', by simp [codes], by simp [codes], ?_, ?_, h1', ?_⟩
  · intro c hc
    obtain ⟨s, hs, rfl⟩ := List.mem_map.1 hc
    exact List.idxOf_lt_length_iff.2 (h2 s hs)
  · intro c hc
    obtain ⟨s, hs, rfl⟩ := List.mem_map.1 hc
    exact List.idxOf_lt_length_iff.2 (h2' s hs)
  · intro i j a b ca cb hi hj hci hcj
    simp only [codes, List.getElem?_map, hi, hj, Option.map_some, Option.some.injEq] at hci hcj
    have ha : a ∈ cl' := h2 a (List.mem_of_getElem? hi)
    have hb : b ∈ cl' := h2' b (List.mem_of_getElem? hj)
    subst hci; subst hcj
    refine ⟨?_, idxOf_lt_iff hsorted ha hb⟩
    constructor
    · intro h
      have ga := List.getElem_idxOf (List.idxOf_lt_length_iff.2 ha)
      have gb := List.getElem_idxOf (List.idxOf_lt_length_iff.2 hb)
      rw [← ga, ← gb]; congr 1
    · rintro rfl; rfl

/-- **C13 (b).** A stored encoder is never changed by any later history of calls, failing or not. -/
theorem C13_encoders_persist (le : Encoders N κ) (fs : List (List (N × Col κ))) (n : N) (cl : List κ)
    (h : le.lookup n = some cl) : (history le fs).lookup n = some cl :=
  history_keeps le fs n cl h

/-- **C13 (c).** A call on a frame with a category never seen in the first encounter of that column raises
`ValueError` (also when the call is a new `fit`). -/
theorem C13_unseen_raises (le : Encoders N κ) (f : List (N × Col κ)) (p : Nat) (n : N) (v cl : List κ)
    (hp : f[p]? = some (n, .obj v)) (hle : le.lookup n = some cl) (hun : ∃ s ∈ v, s ∉ cl) :
    (encode le f).err = some .valueError := by
  have hnone : (encode le f).err ≠ none := by
    intro h
    obtain ⟨cl', h1, h2, -⟩ := encode_ok_columns le f h p n v hp
    rw [encode_keeps le f n cl hle] at h1
    obtain ⟨s, hs, hns⟩ := hun
    exact hns ((Option.some.inj h1) ▸ h2 s hs)
  have honly : ∀ (le : Encoders N κ) (f : List (N × Col κ)), (encode le f).err ≠ none →
      (encode le f).err = some .valueError := by
    intro le f
    induction f generalizing le with
    | nil => intro h; exact absurd rfl h
    | cons e f ih =>
      obtain ⟨n, c⟩ := e
      cases hc : encodeCol le n c with
      | ok q => obtain ⟨le', c'⟩ := q; simp only [encode, hc]; exact ih le'
      | error e =>
        intro _
        simp only [encode, hc]
        cases c with
        | num v => simp [encodeCol] at hc
        | obj v =>
          cases hl : le.lookup n with
          | none => simp [encodeCol, hl] at hc
          | some cl =>
            simp only [encodeCol, hl] at hc
            split at hc
            · cases hc
            · rw [← Except.error.inj hc]
  exact honly le f hnone

/-- **C13 (d).** Encoding is idempotent: the frame produced by a successful call has no categorical column
left, and passing it again (as the nested `predict` inside `fit` does) changes neither it nor the encoders. -/
theorem C13_idempotent (le : Encoders N κ) (f : List (N × Col κ)) (h : (encode le f).err = none) :
    encode (encode le f).le (encode le f).frame = ⟨(encode le f).le, (encode le f).frame, none⟩ := by
  have hnum : ∀ (le : Encoders N κ) (f : List (N × Col κ)), (encode le f).err = none →
      ∀ e ∈ (encode le f).frame, ∃ v, e.2 = .num v := by
    intro le f
    induction f generalizing le with
    | nil => simp [encode]
    | cons e f ih =>
      obtain ⟨n, c⟩ := e
      cases hc : encodeCol le n c with
      | error e => simp [encode, hc]
      | ok q =>
        obtain ⟨le', c'⟩ := q
        simp only [encode, hc]
        intro h e he
        rcases List.mem_cons.1 he with rfl | he
        · cases c with
          | num v => simp only [encodeCol, Except.ok.injEq, Prod.mk.injEq] at hc; exact ⟨v, hc.2.symm⟩
          | obj v =>
            cases hl : le.lookup n with
            | none => simp only [encodeCol, hl, Except.ok.injEq, Prod.mk.injEq] at hc; exact ⟨_, hc.2.symm⟩
            | some cl =>
              simp only [encodeCol, hl] at hc
              split at hc
              · simp only [Except.ok.injEq, Prod.mk.injEq] at hc; exact ⟨_, hc.2.symm⟩
              · cases hc
        · exact ih le' h e he
  have hid : ∀ (le : Encoders N κ) (f : List (N × Col κ)), (∀ e ∈ f, ∃ v, e.2 = .num v) →
      encode le f = ⟨le, f, none⟩ := by
    intro le f
    induction f with
    | nil => intro _; rfl
    | cons e f ih =>
      obtain ⟨n, c⟩ := e
      intro hall
      obtain ⟨v, hv⟩ := hall (n, c) List.mem_cons_self
      simp only at hv; subst hv
      simp only [encode, encodeCol]
      rw [ih (fun e he => hall e (List.mem_cons_of_mem _ he))]
  exact hid _ _ (hnum le f h)

/-- **C14.** A failing call: there is an offending categorical column; all columns before it have been
replaced in the caller's frame as a successful call on them alone would do (and their new encoders are kept),
the offending column and all later ones are untouched. -/
theorem C14_half_encoded (le : Encoders N κ) (f : List (N × Col κ)) (e : PyErr) (h : (encode le f).err = some e) :
    ∃ pre n v post cl, f = pre ++ (n, .obj v) :: post ∧ (encode le pre).err = none ∧
      (encode le f).frame = (encode le pre).frame ++ (n, .obj v) :: post ∧
      (encode le f).le = (encode le pre).le ∧
      (encode le pre).le.lookup n = some cl ∧ (∃ s ∈ v, s ∉ cl) := by
  induction f generalizing le with
  | nil => simp [encode] at h
  | cons c f ih =>
    obtain ⟨n, c⟩ := c
    cases hc : encodeCol le n c with
    | error e' =>
      cases c with
      | num v => simp [encodeCol] at hc
      | obj v =>
        cases hl : le.lookup n with
        | none => simp [encodeCol, hl] at hc
        | some cl =>
          refine ⟨[], n, v, f, cl, rfl, rfl, ?_, ?_, hl, ?_⟩
          · simp [encode, hc]
          · simp [encode, hc]
          · simp only [encodeCol, hl] at hc
            split at hc
            · cases hc
            · next hall =>
              simpa using hall
    | ok q =>
      obtain ⟨le', c'⟩ := q
      simp only [encode, hc] at h
      obtain ⟨pre, m, v, post, cl, h1, h2, h3, h4, h5, h6⟩ := ih le' h
      refine ⟨(n, c) :: pre, m, v, post, cl, by rw [h1]; rfl, ?_, ?_, ?_, ?_, h6⟩
      · simp only [encode, hc]; exact h2
      · simp only [encode, hc]; rw [h3]; rfl
      · simp only [encode, hc]; exact h4
      · simp only [encode, hc]; exact h5

/-! ### Concrete instances -/

def exFrame1 : List (String × Col Nat) := [("a", .obj [30, 10, 30]), ("b", .num [7, 8, 9])]
def exFrame2 : List (String × Col Nat) := [("c", .obj [5, 5]), ("a", .obj [10, 30])]
def exFrame3 : List (String × Col Nat) := [("d", .obj [2, 1]), ("a", .obj [10, 20]), ("e", .obj [4, 3])]

example : (encode [] exFrame1).err = none := by decide +kernel
example : (encode [] exFrame1).frame = [("a", .num [1, 0, 1]), ("b", .num [7, 8, 9])] := by decide +kernel
example : (encode (encode [] exFrame1).le exFrame2).frame = [("c", .num [0, 0]), ("a", .num [0, 1])] := by
  decide +kernel
/-- A failing call half encodes the frame. -/
example : (encode (encode [] exFrame1).le exFrame3).frame
    = [("d", .num [1, 0]), ("a", .obj [10, 20]), ("e", .obj [4, 3])] := by decide +kernel
example : (encode (encode [] exFrame1).le exFrame3).err = some .valueError := by decide +kernel

end PyF.Encode
