import Verif.BinFlat.Props

/-! Examples for C326 and C327. -/

namespace PyF.BinFlat
open PyF PyF.Names PyF.Transform PyF.Binned

/-- The sum. -/
def exSum : Fn := ⟨"sum".toList, fun l => some l.sum⟩

/-- Eight observations. -/
def exCol : Col := [some 1, some 2, some 4, some 8, some 16, some 32, some 64, some 128]

/-- Ten, the fourth one missing. -/
def exGap : Col := [some 1, some 2, some 4, none, some 16, some 32, some 64, some 128, some 256, some 512]

instance (b : List Nat) : Decidable (Desc b) := by unfold Desc; infer_instance

/-- Bins of one sample three steps back and of the latest two: the last two rows hold nothing. -/
example : (columns [exSum] [3, 2, 0] false none exCol).toOption.map (fun l => l.map (fun q => (q.1.bin, q.2)))
    = some [((3, 2), [none, none, some 1, some 2, some 4, some 8, none, none]),
            ((2, 0), [none, none, some 6, some 12, some 24, some 48, none, none])] := by decide +kernel

/-- With `nested=True` the latest rows are there. -/
example : (Binned.columns "v".toList [exSum] [3, 2, 0] false none 1 exCol).map (fun q => (q.1.bin, q.2))
    = [((3, 2), [none, none, some 1, some 2, some 4, some 8, some 16, some 32]),
       ((2, 0), [none, some 3, some 6, some 12, some 24, some 48, some 96, some 192])] := by decide +kernel

/-- C326_columns and C326_no_gaps apply: row 5. -/
example : expected [3, 2, 0] (2, 0) 0 exSum.ev exCol 5 = some 48 := by
  rw [C326_no_gaps [3, 2, 0] (by decide) (by decide) (2, 0) 0 exSum.ev exCol (by decide) 5, if_pos (by decide)]
  decide +kernel

/-- A missing value: at row 5 the "latest two" samples are said to add up to 6, the sum of rows 1 and 2, instead of 48. -/
example : (columns [exSum] [3, 2, 0] false none exGap).toOption.map (fun l => l.map (fun q => (q.1.bin, q.2)))
    = some [((3, 2), [none, none, none, none, none, some 1, some 16, some 32, none, none]),
            ((2, 0), [none, none, none, none, none, some 6, some 96, some 192, none, none])] := by decide +kernel

/-- C326_stale at row 5 of it. -/
example : ∃ r : Nat, r + 0 ≤ 5 ∧ r ≠ 5 ∧ expected [3, 2, 0] (2, 0) 0 exSum.ev exGap 5 = aggAt (2, 0) exSum.ev exGap r := by
  obtain ⟨r, h1, h2, h3⟩ := C326_stale [3, 2, 0] (by decide) (by decide) (2, 0) 0 exSum.ev exGap 5 (by decide +kernel)
  refine ⟨r, h1, fun hr => ?_, h2⟩
  obtain ⟨u, hu, hf⟩ := h3.1 (by omega) 2 (by decide)
  have : u = 3 := by omega
  subst this
  exact absurd hf (by decide +kernel)

/-- The last bin takes a sample at its right border: a window of six samples, bins described as (0, 1) and (2, 3, 4). -/
example : members [0, 2, 5] 6 0 = [0, 1] ∧ members [0, 2, 5] 6 1 = [2, 3, 4, 5] ∧ members [0, 2, 5] 5 1 = [2, 3, 4] := by decide +kernel

/-- Refused: no run of three observations. -/
example : (∃ e, columns [exSum] [3, 2, 0] false none [some 1, some 2, none, some 3, some 4] = .error e) :=
  (C326_refused [exSum] [3, 2, 0] false none _ (by decide) (by decide) (by simp)).1.2 (Or.inl (fun t ht => by
    have h1 : t + 3 ≤ 5 := ht.1
    have h2 := ht.2
    have : t = 0 ∨ t = 1 ∨ t = 2 := by omega
    rcases this with rfl | rfl | rfl
    · exact h2 2 (by decide) (by decide +kernel)
    · exact h2 1 (by decide) (by decide +kernel)
    · exact h2 0 (by decide) (by decide +kernel)))

/-- C327: two functions and two bins with one lag. -/
example : metaTimes [exSum, ⟨"max".toList, fun l => l.max?⟩] [3, 2, 0] false (some [1]) 10
    = (labels [exSum, ⟨"max".toList, fun l => l.max?⟩] [3, 2, 0] (some [1])).map (fun q => trueWindow [3, 2, 0] false 10 q.1) :=
  (C327_right_single_lag _ _ _ _ _ rfl).1

/-- C327: two lags. -/
example : ∃ n, (labels [exSum] [3, 2, 0] (some [0, 1]))[1]? = some n ∧
    ∃ w, (metaTimes [exSum] [3, 2, 0] false (some [0, 1]) 10)[1]? = some w ∧ w ≠ trueWindow [3, 2, 0] false 10 n.1 :=
  C327_times_wrong [exSum] [3, 2, 0] 0 1 [] 10 (by decide) (by decide) (by decide) (by simp) (Or.inl (by decide)) (by decide)

end PyF.BinFlat
