import Verif.Sampling.Model

/-! Vocabulary of C244-C247. -/

namespace PyF.Sampling.Spec

/-- The value observed at a time, NaN if the time is not in the index. -/
def valueAt (S : Series) (τ : ℤ) : Option ℚ := (S.find? (fun e => e.1 = τ)).bind Prod.snd

/-- Stamps strictly increase. -/
def Increasing (S : Series) : Prop := S.Pairwise (fun a b => a.1 < b.1)

/-- All stamps lie on a grid of step `dt`; rows may be missing. -/
def OnGrid (dt : ℤ) (S : Series) : Prop := ∀ a ∈ S, ∀ b ∈ S, dt ∣ b.1 - a.1

/-- The steps of an index: each stamp minus the one before. -/
def steps (index : List ℤ) : List ℤ := List.zipWith (fun a b => b - a) index (index.drop 1)

/-- A regular index. -/
def grid (t0 dt : ℤ) (n : ℕ) : List ℤ := (List.range n).map (fun (k : ℕ) => t0 + k * dt)

end PyF.Sampling.Spec
