import Verif.BigData.Lemmas
import Mathlib.Data.Rat.Defs
import Mathlib.Algebra.Order.Field.Rat
import Mathlib.Tactic.NormNum
import Mathlib.Algebra.Order.Field.Power

namespace PyF.BigData

open PyF

/-- C65 (partition, any increasing cut points): the pieces are as many as asked for and their concatenation is the list, also when the cut points are rounded. -/
theorem C65_partition {α : Type*} (pts : Nat → Nat) (hm : Monotone pts) (xs : List α) (n : Nat) (h0 : pts 0 = 0) (hn : pts n = xs.length) :
    ∃ ps, splitLoop pts xs (List.range n) = .ok ps ∧ ps.length = n ∧ ps.flatten = xs := by
  refine ⟨_, splitLoop_ok pts hm xs _ (fun s hs => ?_), by simp, ?_⟩
  · rw [← hn]; exact hm (List.mem_range.1 hs)
  · rw [flatten_pieces pts hm h0, hn, List.take_length]

theorem arraySplit_ok {α : Type*} (xs : List α) (n : Nat) (hn : 0 < n) :
    arraySplit xs n = .ok ((List.range n).map (fun s => (xs.drop (point xs.length n s)).take (point xs.length n (s + 1) - point xs.length n s))) :=
  splitLoop_ok _ (point_mono _ _) xs _ (fun _ hs => point_le _ _ _ hn (List.mem_range.1 hs))

/-- C65: `array_split` gives `n` consecutive pieces whose concatenation is the list and whose lengths are the quotient, or one more. -/
theorem C65_sizes {α : Type*} (xs : List α) (n : Nat) (hn : 0 < n) :
    ∃ ps, arraySplit xs n = .ok ps ∧ ps.length = n ∧ ps.flatten = xs ∧ ∀ p ∈ ps, p.length = xs.length / n ∨ p.length = xs.length / n + 1 := by
  refine ⟨_, arraySplit_ok xs n hn, by simp, ?_, ?_⟩
  · rw [flatten_pieces _ (point_mono _ _) (point_zero _ _), point_last _ _ hn, List.take_length]
  · intro p hp
    obtain ⟨s, hs, rfl⟩ := List.mem_map.1 hp
    rw [List.length_take, List.length_drop]
    have h1 := point_le xs.length n (s + 1) hn (List.mem_range.1 hs)
    have h2 := point_mono xs.length n (show s ≤ s + 1 by omega)
    rw [min_eq_left (by omega)]
    exact point_step _ _ _ hn

variable {C I α : Type}

/-- A rectangular frame. -/
structure Wf (df : Frame C I α) : Prop where
  idx : df.idx.length = df.rows.length
  width : ∀ r ∈ df.rows, r.length = df.cols.length

/-- The pieces of a frame cut along the rows. -/
def piece0 (df : Frame C I α) (n s : Nat) : Frame C I α :=
  ⟨df.cols, (df.idx.drop (point df.rows.length n s)).take (point df.rows.length n (s + 1) - point df.rows.length n s),
    (df.rows.drop (point df.rows.length n s)).take (point df.rows.length n (s + 1) - point df.rows.length n s)⟩

/-- The pieces of a frame cut along the columns. -/
def piece1 (df : Frame C I α) (n s : Nat) : Frame C I α :=
  ⟨(df.cols.drop (point df.cols.length n s)).take (point df.cols.length n (s + 1) - point df.cols.length n s), df.idx,
    df.rows.map (fun r => (r.drop (point df.cols.length n s)).take (point df.cols.length n (s + 1) - point df.cols.length n s))⟩

theorem split0_ok (df : Frame C I α) (hw : Wf df) (n : Nat) (hn : 0 < n) : split0 df n = .ok ((List.range n).map (piece0 df n)) := by
  unfold split0
  rw [arraySplit_ok _ n hn]
  simp only [List.map_map]
  congr 1
  apply List.map_congr_left
  intro s _
  have hl : (df.idx.zip df.rows).length = df.rows.length := by rw [List.length_zip, hw.idx, min_self]
  simp only [Function.comp_apply, piece0, Frame.mk.injEq, true_and, hl]
  rw [List.map_take, List.map_drop, List.map_take, List.map_drop, List.map_fst_zip (by rw [hw.idx]), List.map_snd_zip (by rw [hw.idx])]
  exact ⟨rfl, rfl⟩

theorem split1_ok (df : Frame C I α) (hw : Wf df) (n : Nat) (hn : 0 < n) : split1 df n = .ok ((List.range n).map (piece1 df n)) := by
  unfold split1
  apply mapM_ok
  intro s hs
  have h1 := point_le df.cols.length n (s + 1) hn (List.mem_range.1 hs)
  have h2 := point_mono df.cols.length n (show s ≤ s + 1 by omega)
  unfold colSeg
  rw [seg_ok _ h2 h1]
  simp only
  rw [mapM_ok _ (fun r => (r.drop (point df.cols.length n s)).take (point df.cols.length n (s + 1) - point df.cols.length n s)) df.rows
    (fun r hr => seg_ok r h2 (by rw [hw.width r hr]; exact h1))]
  rfl

theorem flatMap_idx0 (df : Frame C I α) (hw : Wf df) (n : Nat) (hn : 0 < n) : ((List.range n).map (piece0 df n)).flatMap Frame.idx = df.idx := by
  rw [List.flatMap_def, List.map_map]
  have := flatten_pieces (point df.rows.length n) (point_mono _ _) (point_zero _ _) df.idx n
  rw [point_last _ _ hn, ← hw.idx, List.take_length] at this
  conv_rhs => rw [← this]
  simp only [Function.comp_def, piece0, hw.idx]

theorem flatMap_rows0 (df : Frame C I α) (n : Nat) (hn : 0 < n) : ((List.range n).map (piece0 df n)).flatMap Frame.rows = df.rows := by
  rw [List.flatMap_def, List.map_map]
  have := flatten_pieces (point df.rows.length n) (point_mono _ _) (point_zero _ _) df.rows n
  rw [point_last _ _ hn, List.take_length] at this
  conv_rhs => rw [← this]
  rfl

theorem flatMap_cols1 (df : Frame C I α) (n : Nat) (hn : 0 < n) : ((List.range n).map (piece1 df n)).flatMap Frame.cols = df.cols := by
  rw [List.flatMap_def, List.map_map]
  have := flatten_pieces (point df.cols.length n) (point_mono _ _) (point_zero _ _) df.cols n
  rw [point_last _ _ hn, List.take_length] at this
  conv_rhs => rw [← this]
  rfl

theorem flatMap_row1 (df : Frame C I α) (hw : Wf df) (n : Nat) (hn : 0 < n) (i : Nat) (hi : i < df.rows.length) :
    ((List.range n).map (piece1 df n)).flatMap (fun e => e.rows.getD i []) = df.rows[i] := by
  rw [List.flatMap_def, List.map_map]
  have := flatten_pieces (point df.cols.length n) (point_mono _ _) (point_zero _ _) df.rows[i] n
  rw [point_last _ _ hn, ← hw.width _ (List.getElem_mem hi), List.take_length] at this
  conv_rhs => rw [← this]
  congr 1
  apply List.map_congr_left
  intro s _
  simp only [Function.comp_apply, piece1, hw.width _ (List.getElem_mem hi)]
  simp [hi]

theorem zip_seg {X Y : Type} (l : List X) (m : List Y) (a k : Nat) : ((l.drop a).take k).zip ((m.drop a).take k) = ((l.zip m).drop a).take k := by
  simp only [List.zip_eq_zipWith, List.drop_zipWith, List.take_zipWith]

theorem range_pos_cons {n : Nat} (hn : 0 < n) : List.range n = 0 :: (List.range (n - 1)).map (· + 1) := by
  cases n with
  | zero => omega
  | succ n => rw [List.range_succ_eq_map]; rfl

/-- C65 (frames): concatenating the pieces of a frame gives the frame back, for both axes. -/
theorem C65_frames (df : Frame C I α) (hw : Wf df) (n : Nat) (hn : 0 < n) :
    (∃ ps, split0 df n = .ok ps ∧ ps.length = n ∧ concat false ps = .ok df) ∧ ∃ ps, split1 df n = .ok ps ∧ ps.length = n ∧ concat true ps = .ok df := by
  refine ⟨⟨_, split0_ok df hw n hn, by simp, ?_⟩, ⟨_, split1_ok df hw n hn, by simp, ?_⟩⟩
  · have h1 := flatMap_idx0 df hw n hn
    have h2 := flatMap_rows0 df n hn
    rw [range_pos_cons hn] at h1 h2 ⊢
    simp only [List.map_cons] at h1 h2 ⊢
    unfold concat
    simp only [Bool.false_eq_true, if_false, h1, h2]
    rfl
  · have h1 := flatMap_cols1 df n hn
    have h2 := flatMap_row1 df hw n hn
    rw [range_pos_cons hn] at h1 h2 ⊢
    simp only [List.map_cons] at h1 h2 ⊢
    unfold concat
    simp only [if_true, h1]
    congr 1
    have : (piece1 df n 0).rows.length = df.rows.length := by simp [piece1]
    rw [this]
    have hr : (List.range df.rows.length).map (fun i => (piece1 df n 0 :: (List.map (· + 1) (List.range (n - 1))).map (piece1 df n)).flatMap (fun e => e.rows.getD i [])) = df.rows := by
      apply List.ext_getElem (by simp)
      intro i hi hi'
      rw [List.getElem_map, List.getElem_range, h2 i hi']
    rw [hr]
    rfl

/-- `f` keeps the shape of every array. -/
def KeepsShape (F : Arr α → Arr α) : Prop := ∀ a, (F a).width = a.width ∧ (F a).rows.length = a.rows.length

theorem chunk_ok (df : Frame C I α) (hw : Wf df) (n : Nat) (hn : 0 < n) (hc : n < df.cols.length) (axis1 : Bool) :
    chunks (.frame df) n axis1 = .ok ((List.range n).map (if axis1 then piece1 df n else piece0 df n)) := by
  unfold chunks
  simp only [if_pos hc]
  cases axis1
  · exact split0_ok df hw n hn
  · exact split1_ok df hw n hn

/-- C66 (without ray, rows): a frame with more columns than chunks is cut into at least two chunks along the rows, and the result is `f` of the first
`⌊rows / n⌋` rows as a bare array; all other rows are lost. -/
theorem C66_no_ray_rows [LinearOrder C] (F : Arr α → Arr α) (hF : KeepsShape F) (g : Frame C I α → Except PyErr (Frame C I α)) (df : Frame C I α) (hw : Wf df) (n : Nat) (hn : 2 ≤ n)
    (hc : n < df.cols.length) (hr : df.rows ≠ []) (recast : Bool) :
    fdfParallel (fun a => .ok (F a)) g (.frame df) n false false recast = .ok (.arr (F ⟨df.cols.length, df.rows.take (df.rows.length / n)⟩)) := by
  have hlen : 0 < df.rows.length := List.length_pos_iff.2 hr
  unfold fdfParallel
  rw [chunk_ok df hw n (by omega) hc false]
  have hsum := congrArg List.length (flatMap_rows0 df n (by omega))
  rw [List.length_flatMap] at hsum
  simp only [Bool.false_eq_true, if_false]
  rw [range_pos_cons (by omega)] at hsum ⊢
  simp only [List.map_cons] at hsum ⊢
  have hp : piece0 df n 0 = ⟨df.cols, df.idx.take (df.rows.length / n), df.rows.take (df.rows.length / n)⟩ := by
    simp [piece0, point]
  simp only [Except.isOk, Except.toBool, Bool.not_false, Bool.and_self, if_true]
  unfold noRay
  simp only [newCols, Bool.false_eq_true, if_false, (hF _).1, (hF _).2]
  rw [if_neg]
  · rw [hp]
  · rw [Prod.mk.injEq]
    rintro ⟨h1, -⟩
    simp only [List.map_cons] at h1
    rw [hsum, hp, List.length_take] at h1
    have := Nat.div_lt_self hlen hn
    omega

/-- C66 (without ray, columns): a frame with more columns than chunks gives `f` of the first `⌊columns / n⌋` columns as a bare array when the chunks have equal
widths, and a `ValueError` otherwise. -/
theorem C66_no_ray_columns [LinearOrder C] (F : Arr α → Arr α) (hF : KeepsShape F) (g : Frame C I α → Except PyErr (Frame C I α)) (df : Frame C I α) (hw : Wf df) (n : Nat) (hn : 2 ≤ n)
    (hc : n < df.cols.length) (recast : Bool) :
    (n ∣ df.cols.length → fdfParallel (fun a => .ok (F a)) g (.frame df) n true false recast = .ok (.arr (F ⟨df.cols.length / n, df.rows.map (·.take (df.cols.length / n))⟩))) ∧
    (¬ n ∣ df.cols.length → fdfParallel (fun a => .ok (F a)) g (.frame df) n true false recast = .error .valueError) := by
  have hn0 : 0 < n := by omega
  have hsum := congrArg List.length (flatMap_cols1 df n hn0)
  rw [List.length_flatMap] at hsum
  have hp : piece1 df n 0 = ⟨df.cols.take (df.cols.length / n), df.idx, df.rows.map (·.take (df.cols.length / n))⟩ := by
    simp [piece1, point]
  have hl0 : (piece1 df n 0).cols.length = df.cols.length / n := by
    rw [hp, List.length_take]; exact min_eq_left (Nat.div_le_self _ _)
  have hlen : ∀ s < n, (piece1 df n s).cols.length = point df.cols.length n (s + 1) - point df.cols.length n s := by
    intro s hs
    have h1 := point_le df.cols.length n (s + 1) hn0 hs
    have h2 := point_mono df.cols.length n (show s ≤ s + 1 by omega)
    simp only [piece1, List.length_take, List.length_drop]
    exact min_eq_left (by omega)
  have key : ((List.range n).map (piece1 df n)).all (fun d => decide (d.cols.length = (piece1 df n 0).cols.length)) = true ↔ n ∣ df.cols.length := by
    rw [List.all_eq_true]
    constructor
    · intro h
      have : ((List.range n).map (piece1 df n)).map (fun d => d.cols.length) = List.replicate n (df.cols.length / n) := by
        rw [List.eq_replicate_iff]
        refine ⟨by simp, ?_⟩
        intro b hb
        obtain ⟨d, hd, rfl⟩ := List.mem_map.1 hb
        rw [← hl0]; exact of_decide_eq_true (h d hd)
      rw [this, List.sum_replicate_nat] at hsum
      exact ⟨df.cols.length / n, hsum.symm⟩
    · rintro ⟨k, hk⟩ d hd
      obtain ⟨s, hs, rfl⟩ := List.mem_map.1 hd
      have hpk : ∀ t, point df.cols.length n t = t * k := by
        intro t
        unfold point
        rw [hk, show t * (n * k) = n * (t * k) by ring]
        exact Nat.mul_div_cancel_left _ hn0
      rw [hlen s (List.mem_range.1 hs), hlen 0 hn0, hpk, hpk, hpk, hpk]
      apply decide_eq_true
      rw [Nat.add_mul]; simp
  unfold fdfParallel
  rw [chunk_ok df hw n hn0 hc true]
  simp only [if_true]
  rw [range_pos_cons hn0] at hsum key ⊢
  simp only [List.map_cons] at hsum key ⊢
  simp only [Except.isOk, Except.toBool, Bool.not_false, Bool.and_self, if_true]
  unfold noRay
  simp only [newCols, if_true, (hF _).1, (hF _).2]
  constructor
  · intro hd
    rw [if_pos (key.2 hd)]
    simp only
    rw [if_neg]
    · rw [hl0, hp]
    · rw [Prod.mk.injEq]
      rintro ⟨-, h1⟩
      simp only [List.map_cons] at h1
      rw [hsum, hl0] at h1
      have := Nat.div_lt_self (show 0 < df.cols.length by omega) hn
      omega
  · intro hd
    rw [if_neg (fun h => hd (key.1 h))]

/-- C66 (fallback): when `f` raises on the array of the test slice, `use_ray=False` is ignored. -/
theorem C66_fallback [LinearOrder C] (fa : Arr α → Except PyErr (Arr α)) (g : Frame C I α → Except PyErr (Frame C I α)) (src : Src C I α) (n : Nat) (axis1 recast : Bool)
    (hf : ∀ a, ∃ e, fa a = .error e) : fdfParallel fa g src n axis1 false recast = fdfParallel fa g src n axis1 true recast := by
  unfold fdfParallel
  cases chunks src n axis1 with
  | error e => rfl
  | ok l =>
    cases l with
    | nil => rfl
    | cons d ds =>
      obtain ⟨e, he⟩ := hf (testArr d n axis1)
      simp only [he, Except.isOk, Except.toBool, Bool.false_and, Bool.false_eq_true, if_false]

/-- C66 (lists): passing the pieces made by `array_split` is the same as passing a frame that is cut; anything but frames and lists of frames is refused. -/
theorem C66_lists [LinearOrder C] (fa : Arr α → Except PyErr (Arr α)) (g : Frame C I α → Except PyErr (Frame C I α)) (df : Frame C I α) (hw : Wf df) (n : Nat) (hn : 0 < n)
    (hc : n < df.cols.length) (axis1 useRay recast : Bool) :
    (∃ ps, (if axis1 then split1 df n else split0 df n) = .ok ps ∧ fdfParallel fa g (.list ps) n axis1 useRay recast = fdfParallel fa g (.frame df) n axis1 useRay recast) ∧
    fdfParallel fa g .other n axis1 useRay recast = .error .typeError := by
  refine ⟨⟨(List.range n).map (if axis1 then piece1 df n else piece0 df n), ?_, ?_⟩, rfl⟩
  · cases axis1
    · exact split0_ok df hw n hn
    · exact split1_ok df hw n hn
  · unfold fdfParallel
    rw [chunk_ok df hw n hn hc axis1]
    rfl

theorem hom_flatten {X Y : Type} (G : List X → List Y) (h0 : G [] = []) (hG : ∀ a b, G (a ++ b) = G a ++ G b) (l : List (List X)) : (l.map G).flatten = G l.flatten := by
  induction l with
  | nil => simp [h0]
  | cons a l ih => simp [hG, ih]

/-- C66 (with ray, rows): for every function whose rows of output are found row by row the result does not depend on the number of chunks: it is the
function applied to the whole frame. -/
theorem C66_ray_rows [LinearOrder C] (fa : Arr α → Except PyErr (Arr α)) (cols' : List C) (G : List (I × List α) → List (I × List α)) (h0 : G [] = [])
    (hG : ∀ a b, G (a ++ b) = G a ++ G b) (df : Frame C I α) (hw : Wf df) (n : Nat) (hn : 0 < n) :
    fdfParallel fa (fun d => .ok ⟨cols', (G (d.idx.zip d.rows)).map Prod.fst, (G (d.idx.zip d.rows)).map Prod.snd⟩) (.frame df) n false true true =
      .ok (.frame ⟨cols', (G (df.idx.zip df.rows)).map Prod.fst, (G (df.idx.zip df.rows)).map Prod.snd⟩) := by
  unfold fdfParallel
  by_cases hc : n < df.cols.length
  · rw [chunk_ok df hw n hn hc false]
    have hz : (((List.range n).map (piece0 df n)).map (fun d => d.idx.zip d.rows)).flatten = df.idx.zip df.rows := by
      have := flatten_pieces (point df.rows.length n) (point_mono _ _) (point_zero _ _) (df.idx.zip df.rows) n
      rw [point_last _ _ hn] at this
      rw [List.map_map]
      rw [List.take_of_length_le (by simp)] at this
      conv_rhs => rw [← this]
      congr 1
      apply List.map_congr_left
      intro s _
      simp only [Function.comp_apply, piece0]
      exact zip_seg _ _ _ _
    have hfl := hom_flatten G h0 hG (((List.range n).map (piece0 df n)).map (fun d => d.idx.zip d.rows))
    rw [hz, List.map_map] at hfl
    simp only [Bool.false_eq_true, if_false]
    rw [range_pos_cons hn] at hfl ⊢
    simp only [List.map_cons] at hfl ⊢
    simp only [Bool.not_true, Bool.and_false, Bool.false_eq_true, if_false, rayList]
    rw [mapM_ok _ (fun (d : Frame C I α) => (⟨cols', (G (d.idx.zip d.rows)).map Prod.fst, (G (d.idx.zip d.rows)).map Prod.snd⟩ : Frame C I α)) _ (fun _ _ => rfl)]
    simp only [if_true, List.map_cons, concat, Bool.false_eq_true, if_false]
    rw [← hfl]
    simp only [Function.comp_apply, List.flatten_cons, List.map_append, List.map_flatten, List.map_map, List.flatMap_def, Function.comp_def, List.map_cons]
  · unfold chunks
    simp only [if_neg hc]
    simp [rayList, concat, List.mapM_cons, pure, Except.pure, bind, Except.bind]

/-- C66 (with ray, columns): an entrywise function (which may depend on the column) gives the same result whatever the number of chunks. -/
theorem C66_ray_columns [LinearOrder C] (fa : Arr α → Except PyErr (Arr α)) (k : C → α → α) (df : Frame C I α) (hw : Wf df) (n : Nat) (hn : 0 < n) :
    fdfParallel fa (fun d => .ok ⟨d.cols, d.idx, d.rows.map (fun r => List.zipWith k d.cols r)⟩) (.frame df) n true true true =
      .ok (.frame ⟨df.cols, df.idx, df.rows.map (fun r => List.zipWith k df.cols r)⟩) := by
  unfold fdfParallel
  by_cases hc : n < df.cols.length
  · rw [chunk_ok df hw n hn hc true]
    have hw' : Wf (⟨df.cols, df.idx, df.rows.map (fun r => List.zipWith k df.cols r)⟩ : Frame C I α) := by
      refine ⟨by simpa using hw.idx, ?_⟩
      intro r hr
      obtain ⟨r0, h0, rfl⟩ := List.mem_map.1 hr
      simp [hw.width r0 h0]
    obtain ⟨ps, h1, h2, h3⟩ := (C65_frames _ hw' n hn).2
    rw [split1_ok _ hw' n hn] at h1
    cases h1
    have hmap : ((List.range n).map (piece1 df n)).map (fun d => (⟨d.cols, d.idx, d.rows.map (fun r => List.zipWith k d.cols r)⟩ : Frame C I α)) =
        (List.range n).map (piece1 ⟨df.cols, df.idx, df.rows.map (fun r => List.zipWith k df.cols r)⟩ n) := by
      rw [List.map_map]
      apply List.map_congr_left
      intro s _
      simp only [Function.comp_apply, piece1, List.map_map, Frame.mk.injEq, true_and]
      apply List.map_congr_left
      intro r _
      simp only [Function.comp_apply]
      rw [List.drop_zipWith, List.take_zipWith]
    simp only [if_true]
    rw [← hmap] at h3
    rw [range_pos_cons hn] at h3 ⊢
    simp only [List.map_cons] at h3 ⊢
    simp only [Bool.not_true, Bool.and_false, Bool.false_eq_true, if_false, rayList]
    rw [mapM_ok _ (fun (d : Frame C I α) => (⟨d.cols, d.idx, d.rows.map (fun r => List.zipWith k d.cols r)⟩ : Frame C I α)) _ (fun _ _ => rfl)]
    simp only [List.map_cons]
    rw [h3]
  · unfold chunks
    simp only [if_neg hc]
    simp only [Bool.not_true, Bool.and_false, Bool.false_eq_true, if_false, rayList]
    rw [mapM_ok _ (fun (d : Frame C I α) => (⟨d.cols, d.idx, d.rows.map (fun r => List.zipWith k d.cols r)⟩ : Frame C I α)) _ (fun _ _ => rfl)]
    simp only [if_true, List.map_cons, List.map_nil, concat, List.flatMap_cons, List.flatMap_nil, List.append_nil, List.length_map]
    congr 3
    apply List.ext_getElem (by simp)
    intro i h1 h2
    simp only [List.length_map] at h2
    simp [h2]

/-- C66 (trees): with at least two processors, predicting pre-fitted trees in parallel gives the trees of the rows in the order of the rows, as sequentially;
with a single one it raises `IndexError`. -/
theorem C66_parallel_trees {T : Type} (tree : I → List α → T) (preds : Frame C I α) (hw : Wf preds) (cpu : Nat) :
    (2 ≤ cpu → predTrees tree preds cpu true = predTrees tree preds cpu false) ∧
    (cpu = 1 → 1 < preds.rows.length → preds.cols ≠ [] → predTrees tree preds cpu true = .error .indexError) := by
  constructor
  · intro hcpu
    unfold predTrees
    by_cases hr : 1 < preds.rows.length
    · simp only [hr, decide_true, Bool.and_self, if_true, Bool.false_and, Bool.false_eq_true, if_false]
      have hn : 0 < min (cpu - 1) preds.rows.length := by omega
      generalize min (cpu - 1) preds.rows.length = n at hn
      by_cases hc : n < preds.cols.length
      · rw [chunk_ok preds hw n hn hc false]
        have hz : (((List.range n).map (piece0 preds n)).map (fun d => d.idx.zip d.rows)).flatten = preds.idx.zip preds.rows := by
          have := flatten_pieces (point preds.rows.length n) (point_mono _ _) (point_zero _ _) (preds.idx.zip preds.rows) n
          rw [point_last _ _ hn] at this
          rw [List.map_map]
          rw [List.take_of_length_le (by simp)] at this
          conv_rhs => rw [← this]
          congr 1
          apply List.map_congr_left
          intro s _
          simp only [Function.comp_apply, piece0]
          exact zip_seg _ _ _ _
        simp only [Bool.false_eq_true, if_false]
        rw [← hz, List.map_flatten, List.map_map]
        rw [range_pos_cons hn]
        simp only [List.map_cons, rayList]
        rw [mapM_ok _ (fun (c : Frame C I α) => (c.idx.zip c.rows).map (fun p => tree p.1 p.2)) _ (fun _ _ => rfl)]
        simp [Function.comp_def]
      · unfold chunks
        simp only [if_neg hc]
        simp [rayList, List.mapM_cons, pure, Except.pure, bind, Except.bind]
    · simp [hr]
  · rintro rfl hr hne
    unfold predTrees
    have : 0 < preds.cols.length := List.length_pos_iff.2 hne
    simp only [hr, decide_true, Bool.and_self, if_true, Nat.sub_self, Nat.zero_le, min_eq_left, chunks, this, Bool.false_eq_true, if_false]
    simp [split0, arraySplit, splitLoop]

/-- C66 (folds of the formatter): the folds of at most `n_cpu` series contain every series once, in order. -/
theorem C66_cpu_folds {D : Type} (dfs : List D) (cpu : Nat) (hcpu : 0 < cpu) : (cpuFolds dfs cpu).flatten = dfs ∧ ∀ fold ∈ cpuFolds dfs cpu, fold ≠ [] ∧ fold.length ≤ cpu := by
  constructor
  · unfold cpuFolds
    have key : ∀ m, ((List.range m).map (fun i => (dfs.drop (cpu * i)).take cpu)).flatten = dfs.take (cpu * m) := by
      intro m
      induction m with
      | zero => simp
      | succ m ih =>
        rw [List.range_succ, List.map_append, List.flatten_append, ih, Nat.mul_succ, List.take_add]
        simp
    rw [key, List.take_of_length_le]
    have h1 := Nat.div_add_mod (dfs.length + cpu - 1) cpu
    have h2 := Nat.mod_lt (dfs.length + cpu - 1) hcpu
    generalize cpu * ((dfs.length + cpu - 1) / cpu) = z at *
    omega
  · intro fold hf
    obtain ⟨i, hi, rfl⟩ := List.mem_map.1 hf
    rw [List.mem_range] at hi
    have h3 : cpu * (i + 1) ≤ dfs.length + cpu - 1 := by
      have := (Nat.le_div_iff_mul_le hcpu).1 hi
      rw [Nat.mul_comm]; exact this
    rw [Nat.mul_add] at h3
    refine ⟨?_, by simp⟩
    rw [← List.length_pos_iff, List.length_take, List.length_drop]
    generalize cpu * i = z at *
    omega

theorem unique_sorted [LinearOrder C] (l : List C) : (unique l).Pairwise (· ≤ ·) := List.pairwise_insertionSort _ _

theorem unique_perm [LinearOrder C] (l : List C) : (unique l).Perm l.dedup := List.perm_insertionSort _ _

/-- C113: without ray a frame that is not cut (no more columns than chunks) gets its column labels sorted while the values stay in place: labels are right iff
the columns are sorted already; with repeated labels it fails. -/
theorem C113_sorted_labels [LinearOrder C] (F : Arr α → Arr α) (hF : KeepsShape F) (g : Frame C I α → Except PyErr (Frame C I α)) (df : Frame C I α) (n : Nat)
    (hc : df.cols.length ≤ n) (axis1 recast : Bool) :
    (df.cols.Nodup → ∃ cols', cols'.Perm df.cols ∧ cols'.Pairwise (· < ·) ∧
        fdfParallel (fun a => .ok (F a)) g (.frame df) n axis1 false recast = .ok (.frame ⟨cols', df.idx, (F ⟨df.cols.length, df.rows⟩).rows⟩) ∧
        (cols' = df.cols ↔ df.cols.Pairwise (· < ·))) ∧
    (¬ df.cols.Nodup → fdfParallel (fun a => .ok (F a)) g (.frame df) n axis1 false recast = .error .valueError) := by
  have hcols : newCols [df] axis1 df = .ok (unique df.cols) := by cases axis1 <;> simp [newCols]
  have hval : fdfParallel (fun a => .ok (F a)) g (.frame df) n axis1 false recast =
      if (unique df.cols).length = df.cols.length then .ok (.frame ⟨unique df.cols, df.idx, (F ⟨df.cols.length, df.rows⟩).rows⟩) else .error .valueError := by
    unfold fdfParallel chunks
    simp only [if_neg (show ¬ n < df.cols.length by omega)]
    simp only [Except.isOk, Except.toBool, Bool.not_false, Bool.and_self, if_true]
    unfold noRay
    simp only [hcols, (hF _).1, (hF _).2]
    cases axis1 <;> simp
  rw [hval]
  constructor
  · intro hnd
    have hp : (unique df.cols).Perm df.cols := by
      have := unique_perm df.cols
      rwa [List.dedup_eq_self.2 hnd] at this
    have hlt : (unique df.cols).Pairwise (· < ·) := by
      have h1 := unique_sorted df.cols
      have h2 : (unique df.cols).Pairwise (· ≠ ·) := hp.nodup_iff.2 hnd
      exact (h1.and h2).imp (fun h => lt_of_le_of_ne h.1 h.2)
    refine ⟨unique df.cols, hp, hlt, by rw [if_pos hp.length_eq], ?_⟩
    constructor
    · intro h; rw [← h]; exact hlt
    · intro h
      exact List.Perm.eq_of_pairwise (le := (· < ·)) (fun a b _ _ h1 h2 => absurd h2 (lt_asymm h1)) hlt h hp
  · intro hnd
    rw [if_neg]
    intro h
    rw [(unique_perm df.cols).length_eq] at h
    exact hnd (List.dedup_eq_self.1 ((List.dedup_sublist df.cols).eq_of_length h))

/-- C66 (test slice): `f` decides between the two ways of computing on at most `n` columns (axis 1) or rows (axis 0) of the first piece, all of its rows or columns kept:
a function that does not raise on arrays of that shape is never sent to ray unless asked for. -/
theorem C66_test_slice [LinearOrder C] (fa : Arr α → Except PyErr (Arr α)) (g : Frame C I α → Except PyErr (Frame C I α)) (d : Frame C I α) (ds : List (Frame C I α)) (n : Nat)
    (axis1 recast : Bool)
    (hf : ∀ a : Arr α, (if axis1 then a.rows.length = d.rows.length ∧ a.width = min n d.cols.length ∧ ∀ r ∈ a.rows, r.length ≤ n
      else a.rows.length = min n d.rows.length ∧ a.width = d.cols.length ∧ ∀ r ∈ a.rows, r ∈ d.rows) → ∃ b, fa a = .ok b) :
    fdfParallel fa g (.list (d :: ds)) n axis1 false recast = noRay fa (d :: ds) axis1 := by
  have h : ∃ b, fa (testArr d n axis1) = .ok b := by
    apply hf
    unfold testArr
    cases axis1
    · refine ⟨by simp, rfl, ?_⟩
      intro r hr
      exact List.mem_of_mem_take hr
    · refine ⟨by simp, rfl, ?_⟩
      intro r hr
      simp only [if_true, List.mem_map] at hr
      obtain ⟨r', -, rfl⟩ := hr
      simp
  obtain ⟨b, hb⟩ := h
  unfold fdfParallel chunks
  simp only [hb, Except.isOk, Except.toBool, Bool.not_false, Bool.and_self, if_true]

end PyF.BigData
