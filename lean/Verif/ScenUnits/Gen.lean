import Verif.ScenUnits.Props
import Verif.ScenGen.Model

/-! Predicted scenarios and trees when the predicted quantiles are moved or rescaled. -/

namespace PyF.ScenUnits
open PyF Scenred

section
variable {K : Type} [Field K] [LinearOrder K]

open ScenGen

/-- The interpolation is affine in the quantiles. -/
theorem interp_affine (xs ys : List K) (hx : xs ≠ []) (hl : ys.length = xs.length) (a b u : K) :
    interp xs (ys.map fun y => a * y + b) u = a * interp xs ys u + b := by
  set g : K × K → K × K := fun p => (p.1, a * p.2 + b) with hg
  have hz : xs.zip (ys.map fun y => a * y + b) = (xs.zip ys).map g := by
    rw [List.zip_map_right]
    rfl
  have hs : ((xs.zip ys).map g).insertionSort (fun a b => a.1 ≤ b.1) = ((xs.zip ys).insertionSort (fun a b => a.1 ≤ b.1)).map g :=
    (List.map_insertionSort (r := fun a b : K × K => a.1 ≤ b.1) (s := fun a b : K × K => a.1 ≤ b.1) g _ (fun _ _ _ _ => Iff.rfl)).symm
  have hpos : 0 < ((xs.zip ys).insertionSort (fun a b => a.1 ≤ b.1)).length := by
    rw [List.length_insertionSort, List.length_zip, hl, min_self]
    exact List.length_pos_of_ne_nil hx
  unfold interp
  rw [hz, hs]
  generalize (xs.zip ys).insertionSort (fun a b => a.1 ≤ b.1) = pts at hpos
  have hc : (pts.map g).countP (fun p => decide (p.1 < u)) = pts.countP (fun p => decide (p.1 < u)) := by
    rw [List.countP_map]
    rfl
  simp only [hc, List.length_map]
  have hi : min (max (pts.countP (fun p => decide (p.1 < u))) 1) (pts.length - 1) < pts.length := by omega
  generalize min (max (pts.countP (fun p => decide (p.1 < u))) 1) (pts.length - 1) = i at hi
  have hget : ∀ k < pts.length, (pts.map g).getD k (0, 0) = g (pts.getD k (0, 0)) := by
    intro k hk
    simp [List.getD_eq_getElem?_getD, hk]
  rw [hget i hi, hget (i - 1) (by omega)]
  simp only [hg]
  ring

/-- The quantiles of one observation, multiplied by `a` and moved by `b s` at step `s`. -/
def moved (a : K) (b : ℕ → K) (q : List (List K)) : List (List K) := q.mapIdx fun s l => l.map fun y => a * y + b s

theorem interpScens_moved (levels : List K) (hlev : levels ≠ []) (q : List (List K)) (dim : ℕ) (u : ℕ → ℕ → K) (a : K) (b : ℕ → K) (f : ℕ → ℕ → K)
    (h : interpScens levels q dim u = .ok f) :
    ∃ f', interpScens levels (moved a b q) dim u = .ok f' ∧ ∀ s < q.length, ∀ k, f' s k = a * f s k + b s := by
  unfold interpScens at h ⊢
  have hlen : (moved a b q).length = q.length := by simp [moved]
  have hany : (moved a b q).any (fun q => decide (q.length ≠ levels.length)) = q.any (fun q => decide (q.length ≠ levels.length)) := by
    rw [Bool.eq_iff_iff]
    simp only [List.any_eq_true, moved, List.mem_mapIdx, decide_eq_true_eq]
    constructor
    · rintro ⟨x, ⟨i, hi, rfl⟩, hx⟩
      exact ⟨q[i], List.getElem_mem hi, by simpa using hx⟩
    · rintro ⟨x, hx, hn⟩
      obtain ⟨i, hi, rfl⟩ := List.getElem_of_mem hx
      exact ⟨_, ⟨i, hi, rfl⟩, by simpa using hn⟩
  rw [hany, hlen]
  split at h
  · exact absurd h (by simp)
  · next hq =>
    rw [if_neg hq]
    split at h
    · exact absurd h (by simp)
    · next h1 =>
      rw [if_neg h1]
      split at h
      · exact absurd h (by simp)
      · next h2 =>
        rw [if_neg h2]
        obtain rfl := Except.ok.inj h
        refine ⟨_, rfl, fun s hs k => ?_⟩
        have h3 : (moved a b q).getD s [] = (q.getD s []).map fun y => a * y + b s := by
          simp [List.getD_eq_getElem?_getD, moved, hs]
        have h4 : (q.getD s []).length = levels.length := by
          have h5 : ∀ l ∈ q, l.length = levels.length := by simpa using hq
          apply h5
          simp [List.getD_eq_getElem?_getD, hs]
        simp only [h3]
        exact interp_affine levels _ hlev h4 a (b s) (u s k)

theorem interpRows_moved (levels : List K) (hlev : levels ≠ []) (dim : ℕ) (u : ℕ → ℕ → ℕ → K) (a : K) (b : ℕ → ℕ → K) (t : ℕ) (qs : List (List (List K)))
    (fs : List (ℕ → ℕ → K)) (h : interpRows levels dim u t qs = .ok fs) :
    ∃ fs', interpRows levels dim u t (qs.mapIdx fun i q => moved a (b (t + i)) q) = .ok fs'
      ∧ List.Forall₂ (fun (f' : ℕ → ℕ → K) (x : (ℕ → ℕ → K) × ℕ × ℕ) => ∀ s < x.2.2, ∀ k, f' s k = a * x.1 s k + b (t + x.2.1) s) fs'
          (fs.mapIdx fun i f => (f, i, (qs.getD i []).length)) := by
  induction qs generalizing t fs b with
  | nil =>
    obtain rfl := Except.ok.inj h
    exact ⟨[], rfl, List.Forall₂.nil⟩
  | cons q qs ih =>
    simp only [interpRows] at h
    cases h1 : interpScens levels q dim (u t) with
    | error e => rw [h1] at h; exact absurd h (by simp)
    | ok f =>
      rw [h1] at h
      simp only at h
      cases h2 : interpRows levels dim u (t + 1) qs with
      | error e => rw [h2] at h; exact absurd h (by simp)
      | ok gs =>
        rw [h2] at h
        obtain rfl := Except.ok.inj h
        obtain ⟨f', e1, e2⟩ := interpScens_moved levels hlev q dim (u t) a (b t) f h1
        obtain ⟨gs', e3, e4⟩ := ih (b := b) (t := t + 1) (fs := gs) h2
        have hfun : (fun i q => moved a (b (t + (i + 1))) q) = (fun (i : ℕ) (q : List (List K)) => moved a (b (t + 1 + i)) q) := by
          funext i q
          rw [show t + (i + 1) = t + 1 + i by omega]
        refine ⟨f' :: gs', ?_, ?_⟩
        · rw [List.mapIdx_cons]
          simp only [interpRows, Nat.add_zero, e1, hfun, e3]
        · rw [List.mapIdx_cons]
          refine List.Forall₂.cons ?_ ?_
          · simpa using e2
          · rw [List.forall₂_iff_get] at e4 ⊢
            obtain ⟨l1, l2⟩ := e4
            refine ⟨by simpa using l1, fun i h1 h2 => ?_⟩
            have := l2 i h1 (by simpa using h2)
            simp only [List.get_eq_getElem, List.getElem_mapIdx, List.getD_cons_succ] at this ⊢
            rw [show t + (i + 1) = t + 1 + i by omega]
            exact this

/-- **C271.** Multiplying the predicted quantiles by a factor and adding a signal to them (one for each observation) does the same with the scenarios drawn from them with
the same random numbers, but for the random term `1e-9 * randn`, which has no unit of measure. -/
theorem C271_scenarios (nx : ℕ) (levels : List K) (hlev : levels ≠ []) (steps dim nq : ℕ) (qs : List (List (List K))) (hq : ∀ q ∈ qs, q.length = steps)
    (obs : Option (List K)) (u : Except PyErr (ℕ → ℕ → ℕ → K)) (ini : ℕ → ℕ → K) (noise : ℕ → ℕ → ℕ → K) (a : K) (b : ℕ → ℕ → K) (out : List (Scens K))
    (h : predictScenarios nx levels steps dim nq qs false obs u ini noise = .ok out) :
    ∃ out', predictScenarios nx levels steps dim nq (qs.mapIdx fun t q => moved a (b t) q) false obs u ini noise = .ok out' ∧ out'.length = out.length
      ∧ ∀ (t : ℕ) (h1 : t < out.length) (h2 : t < out'.length), out'[t].rows = out[t].rows
        ∧ ∀ s < steps, ∀ k, out'[t].val s k = a * out[t].val s k + b t s + (1 - a) * noise t s k := by
  unfold predictScenarios at h ⊢
  split at h
  · exact absurd h (by simp)
  · next hn =>
    rw [if_neg hn]
    unfold sampleScenarios at h ⊢
    have hl : (qs.mapIdx fun t q => moved a (b t) q).length = qs.length := by simp
    rw [hl]
    split at h
    · exact absurd h (by simp)
    · next hnx =>
      rw [if_neg hnx]
      cases u with
      | error e => simp at h
      | ok u =>
        simp only [Bool.false_eq_true, if_false] at h ⊢
        cases hr : interpRows levels dim u 0 qs with
        | error e => rw [hr] at h; simp at h
        | ok fs =>
          rw [hr] at h
          obtain rfl := Except.ok.inj h
          obtain ⟨fs', e1, e2⟩ := interpRows_moved levels hlev dim u a b 0 qs fs hr
          simp only [Nat.zero_add] at e1 e2
          rw [e1]
          rw [List.forall₂_iff_get] at e2
          obtain ⟨l1, l2⟩ := e2
          have hlen : fs.length = qs.length := by
            clear l1 l2 e1 hq hn hnx hl
            have key : ∀ (qs : List (List (List K))) (t : ℕ) (fs : List (ℕ → ℕ → K)), interpRows levels dim u t qs = .ok fs → fs.length = qs.length := by
              intro qs
              induction qs with
              | nil => intro t fs h; obtain rfl := Except.ok.inj h; rfl
              | cons q qs ih =>
                intro t fs h
                simp only [interpRows] at h
                split at h
                · simp at h
                · split at h
                  · simp at h
                  · next gs hg =>
                    obtain rfl := Except.ok.inj h
                    simp [ih _ _ hg]
            exact key qs 0 fs hr
          refine ⟨_, rfl, by simpa using l1, fun t h1 h2 => ?_⟩
          have ht : t < fs.length := by simpa using h1
          have ht' : t < fs'.length := by simpa using h2
          have := l2 t ht' (by simpa using ht)
          simp only [List.get_eq_getElem, List.getElem_mapIdx] at this
          simp only [List.getElem_mapIdx, true_and]
          intro s hs k
          rw [this s (by
            have : qs.getD t [] ∈ qs := by
              have h3 : t < qs.length := hlen ▸ ht
              simp [List.getD_eq_getElem?_getD, h3]
            rw [hq _ this]
            exact hs) k]
          ring

end

/-- Scenarios of one observation as argument of the reduction: `n` scenarios of `steps` steps. -/
def samples (n steps : ℕ) (x : ScenGen.Scens ℚ) : Samples n 1 := fun s k _ => if s < steps then x.val s k else 0

/-- **C271.** Hence the tree predicted for an observation from its own quantiles (`online_tree_reduction`) is, with the same random numbers, the tree of the error quantiles
(those without the forecast) with the forecast superimposed, which is what is predicted from the trees built in advance. -/
theorem C271_online_tree (n : ℕ) (l : Lib n) (nodes : ℕ → ℕ) (tol : ℚ) (nx : ℕ) (levels : List ℚ) (hlev : levels ≠ []) (steps dim nq : ℕ)
    (errq : List (List (List ℚ))) (hq : ∀ q ∈ errq, q.length = steps) (obs : Option (List ℚ)) (u : Except PyErr (ℕ → ℕ → ℕ → ℚ)) (ini : ℕ → ℕ → ℚ)
    (noise : ℕ → ℕ → ℕ → ℚ) (forecast : ℕ → ℕ → ℚ) (out out' : List (ScenGen.Scens ℚ))
    (h : ScenGen.predictScenarios nx levels steps dim nq errq false obs u ini noise = .ok out)
    (h' : ScenGen.predictScenarios nx levels steps dim nq (errq.mapIdx fun t q => moved 1 (forecast t) q) false obs u ini noise = .ok out')
    (t : ℕ) (ht : t < out.length) (ht' : t < out'.length) :
    tree l steps nodes tol (samples n steps out'[t])
      = (tree l steps nodes tol (samples n steps out[t])).map (superimpose fun s _ => if s < steps then forecast t s else 0) := by
  obtain ⟨o, e1, -, e3⟩ := C271_scenarios nx levels hlev steps dim nq errq hq obs u ini noise 1 forecast out h
  rw [h'] at e1
  obtain rfl := Except.ok.inj e1
  rw [← C269_shift]
  congr 1
  funext s k v
  simp only [samples, shifted, Pi.add_apply]
  split
  · next hs => rw [(e3 t ht ht').2 s hs k]; ring
  · simp

end PyF.ScenUnits
