import Verif.Binned.Model
import Verif.Transform.Props

namespace PyF.Binned
open PyF.Names PyF.Transform

/-! ### Specification -/

/-- Rows by which a label's lag shifts. -/
def rowsOf (b : List Nat) (relative : Bool) (l : Option Int) : Int := l.getD 0 * (if relative then (binSteps b : Int) else 1)

/-- The time window of a label: samples `from + lag .. to + lag` (exclusive) steps back, as `[start, stop)`. -/
def trueWindow (b : List Nat) (relative : Bool) (dt : Nat) (n : Label) : Int × Int :=
  (dt - dt * (n.bin.1 + rowsOf b relative n.lag), dt - dt * (n.bin.2 + rowsOf b relative n.lag))

/-- The lags as the columns carry them. -/
def lagList (lags : Option (List Int)) : List (Option Int) :=
  match lags with
  | none => [none]
  | some ls => ls.map some

/-- All labels with their function, lag-major, then bin, then function. -/
def labels (fs : List Fn) (b : List Nat) (lags : Option (List Int)) : List (Label × Fn) :=
  (lagList lags).flatMap (fun l => (pairs b).flatMap (fun p => fs.map (fun f => ({ lag := l, bin := p, fn := f.name }, f))))

/-- Bin borders strictly descending. -/
def Desc (b : List Nat) : Prop := b.Pairwise (· > ·)

/-! ### Values -/

theorem pairs_lt {b : List Nat} (h : Desc b) : ∀ p ∈ pairs b, p.2 < p.1 := by
  induction b with
  | nil => intro p hp; cases hp
  | cons x b ih =>
    intro p hp
    cases b with
    | nil => cases hp
    | cons y b =>
      simp only [pairs, List.tail_cons, List.zip_cons_cons, List.mem_cons] at hp
      rcases hp with rfl | hp
      · exact (List.pairwise_cons.1 h).1 y List.mem_cons_self
      · exact ih (List.pairwise_cons.1 h).2 p hp

theorem shift_shift (c : Col) (L M : Int) (hL : 0 ≤ L) (hM : 0 ≤ M) : shift L (shift M c) = shift (L + M) c := by
  apply List.ext_getElem?
  intro t
  rcases lt_or_ge t c.length with h | h
  · rw [shift_get L (shift M c) t (by rw [shift_length]; exact h), shift_get (L + M) c t h]
    congr 1
    rcases lt_or_ge ((t : Int) - L) 0 with h1 | h1
    · rw [sample_neg _ _ h1, sample_neg _ _ (by omega)]
    · obtain ⟨r, hr⟩ : ∃ r : Nat, (t : Int) - L = r := ⟨((t : Int) - L).toNat, by omega⟩
      rw [hr, sample_of_get _ r _ (shift_get M c r (by omega))]
      congr 1
      omega
  · rw [List.getElem?_eq_none (by rw [shift_length, shift_length]; exact h), List.getElem?_eq_none (by rw [shift_length]; exact h)]

theorem sub_cols (name : Str) (fs : List Fn) (p : Nat × Nat) (dt : Nat) (hdt : 0 < dt) (c : Col)
    (hfs : fs ≠ []) :
    (genCols (sub name fs p) ((sub name fs p).agg.resolve dt) dt name c).map Prod.snd
      = fs.map (fun f => shift (p.2 : Int) (rolling dt ((p.1 - p.2) * dt) (p.1 - p.2) f.ev c)) := by
  cases fs with
  | nil => exact absurd rfl hfs
  | cons f fs =>
    have hsteps : (p.1 - p.2) * dt / dt = p.1 - p.2 := Nat.mul_div_cancel _ hdt
    simp [genCols, sub, Transform.baseCols, lagMult, Agg.resolve, Agg.ns, aggSteps, hsteps]

theorem zipWith_flatMap {α β γ δ : Type} (l : List δ) (f : δ → List α) (g : δ → List β) (h : α → β → γ)
    (hlen : ∀ d ∈ l, (f d).length = (g d).length) :
    (l.flatMap f).zipWith h (l.flatMap g) = l.flatMap (fun d => (f d).zipWith h (g d)) := by
  induction l with
  | nil => rfl
  | cons d l ih =>
    simp only [List.flatMap_cons]
    rw [List.zipWith_append (hlen d List.mem_cons_self), ih (fun e he => hlen e (List.mem_cons_of_mem _ he))]

/-- C21 (values): with non-negative lags the columns are, lag-major, then bin, then function, exactly the function of
the samples `from + lag - 1` to `to + lag` steps before the row. -/
theorem C21_binned_values (name : Str) (fs : List Fn) (b : List Nat) (relative : Bool) (lags : Option (List Int))
    (dt : Nat) (c : Col) (hb : Desc b) (hfs : fs ≠ []) (hdt : 0 < dt) (hpos : ∀ ls, lags = some ls → ∀ l ∈ ls, 0 ≤ l) :
    List.Forall₂ (fun (p : Label × Col) (q : Label × Fn) => p.1 = q.1 ∧
        IsAgg (q.1.bin.1 - q.1.bin.2) (q.1.bin.2 + rowsOf b relative q.1.lag) q.2.ev c p.2)
      (columns name fs b relative lags dt c) (labels fs b lags) := by
  have hbase : ∀ (l : Option Int) (g : Col → Col),
      (baseLabels fs b).zipWith (fun n col => (({ lag := l, bin := n.1, fn := n.2 } : Label), g col)) (baseCols name fs b dt c)
        = (pairs b).flatMap (fun p => fs.map (fun f => (({ lag := l, bin := p, fn := f.name } : Label),
            g (shift (p.2 : Int) (rolling dt ((p.1 - p.2) * dt) (p.1 - p.2) f.ev c))))) := by
    intro l g
    unfold baseLabels baseCols
    rw [zipWith_flatMap]
    · apply List.flatMap_congr
      intro p _
      rw [sub_cols name fs p dt hdt c hfs, List.zipWith_map, List.zipWith_self]
    · intro p _
      rw [sub_cols name fs p dt hdt c hfs]
      simp
  unfold columns labels
  cases lags with
  | none =>
    have := hbase none id
    simp only [id] at this
    simp only [this, lagList, List.flatMap_cons, List.flatMap_nil, List.append_nil]
    apply forall₂_flatMap
    intro p hp
    apply forall₂_map
    intro f _
    refine ⟨rfl, ?_⟩
    simp only [rowsOf, Option.getD_none, zero_mul, add_zero]
    exact shift_rolling_isAgg dt _ hdt (by have := pairs_lt hb p hp; omega) f.ev c _
  | some ls =>
    simp only [lagList, List.flatMap_map]
    apply forall₂_flatMap
    intro l hl
    rw [hbase (some l) (shift (l * (if relative then (binSteps b : Int) else 1)))]
    apply forall₂_flatMap
    intro p hp
    apply forall₂_map
    intro f _
    refine ⟨rfl, ?_⟩
    have hl0 : 0 ≤ l * (if relative then (binSteps b : Int) else 1) := by
      have := hpos ls rfl l hl
      split
      · positivity
      · omega
    simp only [rowsOf, Option.getD_some]
    rw [shift_shift _ _ _ hl0 (by positivity), add_comm]
    exact shift_rolling_isAgg dt _ hdt (by have := pairs_lt hb p hp; omega) f.ev c _

/-! ### Metadata -/

theorem window_eq (b : List Nat) (relative : Bool) (dt : Nat) (l : Option Int) (p : Nat × Nat) (fn : Str) :
    trueWindow b relative dt { lag := l, bin := p, fn := fn }
      = (-(dt : Int) * (p.1 + rowsOf b relative l) + dt, -(dt : Int) * (p.2 + rowsOf b relative l) + dt) := by
  simp only [trueWindow, Prod.mk.injEq]
  constructor <;> ring

theorem lagSteps_eq (b : List Nat) (relative : Bool) (lags : Option (List Int)) :
    lagSteps b relative lags = (lagList lags).map (rowsOf b relative) := by
  cases lags with
  | none => simp [lagSteps, lagList, rowsOf]
  | some ls => simp [lagSteps, lagList, rowsOf, Function.comp_def]

/-- C21 (window): the rows a column aggregates at row `t` (see `C21_binned_values`) are those whose time distance from
`t` lies in the window of its label. -/
theorem C21_window_is_read (b : List Nat) (relative : Bool) (dt : Nat) (hdt : 0 < dt) (n : Label) (hn : n.bin.2 < n.bin.1)
    (t s : Int) :
    s ∈ (List.range (n.bin.1 - n.bin.2)).map
        (fun (j : Nat) => t - (n.bin.2 + rowsOf b relative n.lag) - (n.bin.1 - n.bin.2 : Nat) + 1 + j)
      ↔ (trueWindow b relative dt n).1 ≤ (s - t) * dt ∧ (s - t) * dt < (trueWindow b relative dt n).2 := by
  rw [idx_mem dt _ hdt]
  have e1 : -((n.bin.2 + rowsOf b relative n.lag) * (dt : Int)) - ((n.bin.1 - n.bin.2 : Nat) : Int) * dt + dt
      = (trueWindow b relative dt n).1 := by
    rw [Nat.cast_sub hn.le]
    simp only [trueWindow]
    ring
  have e2 : -((n.bin.2 + rowsOf b relative n.lag) * (dt : Int)) + dt = (trueWindow b relative dt n).2 := by
    simp only [trueWindow]
    ring
  rw [e1, e2]

/-- C21 (unit of relative lags): for decreasing bins the unit is the widest distance between two bin edges. -/
theorem C21_relative_unit (b : List Nat) (hb : Desc b) (h0 : b ≠ []) :
    (∀ x ∈ b, ∀ y ∈ b, x ≤ y + binSteps b) ∧ ∃ x ∈ b, ∃ y ∈ b, x = y + binSteps b := by
  have hmax : ∀ x ∈ b, x ≤ b.headD 0 := by
    cases b with
    | nil => exact absurd rfl h0
    | cons a l =>
      intro x hx
      rcases List.mem_cons.mp hx with h | h
      · exact le_of_eq h
      · exact le_of_lt ((List.pairwise_cons.mp hb).1 x h)
  have hmin : ∀ (l : List Nat), Desc l → ∀ y ∈ l, l.getLastD 0 ≤ y := by
    intro l
    induction l with
    | nil => intro _ y hy; cases hy
    | cons a l ih =>
      intro hd y hy
      cases l with
      | nil =>
        rw [List.mem_singleton.mp hy]
        exact le_refl _
      | cons a' l =>
        have hp := List.pairwise_cons.mp hd
        have e : (a :: a' :: l).getLastD 0 = (a' :: l).getLastD 0 := by simp
        rw [e]
        rcases List.mem_cons.mp hy with h | h
        · rw [h]
          exact le_trans (ih hp.2 a' (by simp)) (le_of_lt (hp.1 a' (by simp)))
        · exact ih hp.2 y h
  have hhead : b.headD 0 ∈ b := by
    cases b with
    | nil => exact absurd rfl h0
    | cons a l => simp
  have hlast : b.getLastD 0 ∈ b := by
    rw [List.getLastD_eq_getLast?, List.getLast?_eq_some_getLast h0]
    exact List.getLast_mem h0
  have hle := hmin b hb _ hhead
  unfold binSteps
  refine ⟨?_, b.headD 0, hhead, b.getLastD 0, hlast, by omega⟩
  intro x hx y hy
  have h1 := hmax x hx
  have h2 := hmin b hb y hy
  omega

/-- C21 (one lag): with a single lag (or none) the metadata times are those of the columns, for any bins and
functions. -/
theorem C21_times_right_single_lag (fs : List Fn) (b : List Nat) (relative : Bool) (lags : Option (List Int)) (dt : Nat)
    (h : (lagList lags).length = 1) :
    metaTimes fs b relative lags dt = (labels fs b lags).map (fun q => trueWindow b relative dt q.1) := by
  obtain ⟨l, hl⟩ := List.length_eq_one_iff.1 h
  unfold metaTimes labels
  rw [lagSteps_eq, hl]
  simp only [List.map_cons, List.map_nil, List.flatMap_cons, List.flatMap_nil, List.append_nil, List.map_flatMap, List.map_map]
  apply List.flatMap_congr
  intro p _
  induction fs with
  | nil => rfl
  | cons f fs ih => simp only [List.flatMap_cons, List.map_cons, ih, Function.comp, window_eq, List.cons_append, List.nil_append]

/-- C21 (one bin and one function): the metadata times are those of the columns, for any lags. -/
theorem C21_times_right_single_bin (f : Fn) (b0 b1 : Nat) (relative : Bool) (lags : Option (List Int)) (dt : Nat) :
    metaTimes [f] [b0, b1] relative lags dt
      = (labels [f] [b0, b1] lags).map (fun q => trueWindow [b0, b1] relative dt q.1) := by
  unfold metaTimes labels
  rw [lagSteps_eq]
  simp only [pairs, List.tail_cons, List.zip_cons_cons, List.zip_nil_right, List.flatMap_cons, List.flatMap_nil,
    List.append_nil, List.map_cons, List.map_nil, List.map_map]
  induction lagList lags with
  | nil => rfl
  | cons l ls ih =>
    simp only [List.map_cons, List.flatMap_cons, List.cons_append, List.nil_append, Function.comp, window_eq]
    congr 1

/-- C21 (defect): with two increasing lags and at least two bins or two functions, the second column's metadata times
are not the window the column reads. -/
theorem C21_times_wrong (fs : List Fn) (b : List Nat) (l0 l1 : Int) (ls : List Int) (dt : Nat) (hdt : 0 < dt)
    (hb : Desc b) (hb1 : 1 < b.length) (hfs : fs ≠ []) (h : 2 < b.length ∨ 1 < fs.length) (hl : l0 < l1) :
    ∃ n, (labels fs b (some (l0 :: l1 :: ls)))[1]? = some n ∧
      ∃ w, (metaTimes fs b false (some (l0 :: l1 :: ls)) dt)[1]? = some w ∧ w ≠ trueWindow b false dt n.1 := by
  obtain ⟨f0, fs', rfl⟩ := List.exists_cons_of_ne_nil hfs
  match b, hb1, hb with
  | b0 :: b1 :: bs, _, hb =>
    have hb01 : b1 < b0 := (List.pairwise_cons.1 hb).1 b1 List.mem_cons_self
    have hd : (0 : Int) < dt := by exact_mod_cast hdt
    have hw : (metaTimes (f0 :: fs') (b0 :: b1 :: bs) false (some (l0 :: l1 :: ls)) dt)[1]?
        = some (-(dt : Int) * (b0 + l1) + dt, -(dt : Int) * (b1 + l1) + dt) := by
      simp [metaTimes, pairs, lagSteps]
    cases fs' with
    | cons f1 fs'' =>
      refine ⟨({ lag := some l0, bin := (b0, b1), fn := f1.name }, f1), by simp [labels, lagList, pairs], _, hw, ?_⟩
      rw [window_eq]
      intro he
      have he1 := (Prod.mk.injEq _ _ _ _ ▸ he).1
      simp only [rowsOf, Option.getD_some, Bool.false_eq_true, if_false, mul_one] at he1
      nlinarith
    | nil =>
      match bs, h with
      | b2 :: bs', _ =>
        refine ⟨({ lag := some l0, bin := (b1, b2), fn := f0.name }, f0), by simp [labels, lagList, pairs], _, hw, ?_⟩
        rw [window_eq]
        intro he
        have he1 := (Prod.mk.injEq _ _ _ _ ▸ he).1
        simp only [rowsOf, Option.getD_some, Bool.false_eq_true, if_false, mul_one] at he1
        have hb01' : (b1 : Int) < b0 := by exact_mod_cast hb01
        nlinarith
      | [], h => simp at h

/-- C21 (defect): with at least two functions and two bins (even with a single lag) the metadata `function` of the
second column is that of the first function, while the column holds the second. -/
theorem C21_function_label_wrong (f0 f1 : Fn) (fs : List Fn) (b0 b1 b2 : Nat) (bs : List Nat) (relative : Bool)
    (lags : Option (List Int)) (l : Option Int) (lr : List (Option Int)) (hl : lagList lags = l :: lr) :
    ∃ n, (labels (f0 :: f1 :: fs) (b0 :: b1 :: b2 :: bs) lags)[1]? = some n ∧ n.2 = f1 ∧ n.1.fn = f1.name ∧
      ∃ w, (metaFnLag (f0 :: f1 :: fs) (b0 :: b1 :: b2 :: bs) relative lags)[1]? = some w ∧ w.1 = f0.name := by
  refine ⟨({ lag := l, bin := (b0, b1), fn := f1.name }, f1), by simp [labels, hl, pairs], rfl, rfl, ?_⟩
  refine ⟨(f0.name, rowsOf (b0 :: b1 :: b2 :: bs) relative l), ?_, rfl⟩
  simp [metaFnLag, lagSteps_eq, hl, List.replicate_succ]

/-- C21 (one function): with a single function the `function` and `lag` columns are right. -/
theorem C21_fn_lag_right_single_function (f : Fn) (b : List Nat) (relative : Bool) (lags : Option (List Int)) :
    metaFnLag [f] b relative lags = (labels [f] b lags).map (fun q => (q.1.fn, rowsOf b relative q.1.lag)) := by
  have hlen : (pairs b).length = b.length - 1 := by simp [pairs]
  unfold metaFnLag labels
  rw [lagSteps_eq]
  simp only [List.flatMap_cons, List.flatMap_nil, List.append_nil, List.map_flatMap, List.map_cons, List.map_nil,
    List.flatMap_map]
  apply List.flatMap_congr
  intro l _
  rw [← hlen]
  induction pairs b with
  | nil => rfl
  | cons p ps ih => simp [List.replicate_succ, ih]

/-! ### Concrete instances -/

def exMean : Fn := { name := "mean".toList, ev := fun l => some (l.sum / l.length) }

example : Desc [4, 2, 0] := by unfold Desc; decide

/-- Bins `[4,2)` and `[2,0)`, lags 0 and 1. -/
example : (columns "x".toList [exMean] [4, 2, 0] false (some [0, 1]) 10
    [some 1, some 3, some 5, some 7, some 9])[2]? =
      some ({ lag := some 1, bin := (4, 2), fn := "mean".toList }, [none, none, none, none, some 2]) := by decide +kernel

example : metaTimes [exMean] [4, 2, 0] false (some [0, 1]) 10 = [(-30, -10), (-40, -20), (-10, 10), (-20, 0)] ∧
    (labels [exMean] [4, 2, 0] (some [0, 1])).map (fun q => trueWindow [4, 2, 0] false 10 q.1)
      = [(-30, -10), (-10, 10), (-40, -20), (-20, 0)] := by decide +kernel

example : binSteps [9, 4, 1] = 8 := by decide

end PyF.Binned
