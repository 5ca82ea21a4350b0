import Verif.NNSeed.Lemmas
import Verif.NNTrain.Props
import Mathlib.Algebra.Order.Ring.Rat

/-!
What saving plots during training does to the training itself.
-/

namespace PyF.NNSeed

open PyF PyF.NNTrain

variable {P O K G : Type} [Field K] [LinearOrder K]

/-- **C329.** Training with the generator is training with some draws given: one order of the rows for every epoch and one set of validation rows for every
step, each of them drawn from the generator. What is proved of `NN.fit` for all draws (C68, C118–C120) holds for the training that draws as it goes, with plots
and without. -/
theorem C329_draws (c : Cfg P O K) (vl : P → List ℕ → Option K) (r : Rng G) (plots : Bool) (p0 : P) (o0 : O) (self0 : P) (g : G) :
    ∃ (perm : ℕ → List ℕ) (rows : ℕ → List ℕ),
      fit c vl r plots p0 o0 self0 g = NNTrain.fit { c with perm := perm, loss := fun k p => vl p (rows k) } p0 o0 self0 ∧
      perm 0 = (r.shuffle g).1 ∧ (∀ e, ∃ g', perm e = (r.shuffle g').1) ∧ ∀ k, ∃ g', rows k = (r.sample g').1 := by
  refine ⟨drawnPerm c.statsStep (numBatches c) r plots g, fun k => (r.sample (during c.statsStep (numBatches c) r plots g k)).1, fit_eq c vl r plots p0 o0 self0 g, ?_,
    fun e => ⟨_, rfl⟩, fun k => ⟨_, rfl⟩⟩
  rw [drawnPerm, Nat.zero_mul]
  rfl

/-- **C329.** In a single epoch, with batches at least as large as the validation set, plots make no difference: all validation rows are drawn at every
evaluation, and the mean loss does not depend on their order. -/
theorem C329_one_epoch (c : Cfg P O K) (vl : P → List ℕ → Option K) (r : Rng G) (p0 : P) (o0 : O) (self0 : P) (g : G) (v : ℕ) (he : c.nEpochs ≤ 1)
    (hs : ∀ g, (r.sample g).1.Perm (List.range v)) (hl : ∀ p l l', l.Perm l' → vl p l = vl p l') :
    fit c vl r true p0 o0 self0 g = fit c vl r false p0 o0 self0 g := by
  rw [fit_eq, fit_eq]
  apply fit_congr
  · intro e h _
    have : e = 0 := by omega
    subst this
    simp only [drawnPerm, Nat.zero_mul, before]
  · intro k _
    funext p
    exact hl p _ _ ((hs _).trans (hs _).symm)

omit [Field K] [LinearOrder K] in
theorem before_same (s m : ℕ) (r : Rng G) (g : G) : ∀ k, k ≤ 2 * s → before s m r true g k = before s m r false g k := by
  intro k
  induction k with
  | zero => intro _; rfl
  | succ k ih =>
    intro h
    rw [before_succ, before_succ, during, during, ih (by omega)]
    unfold adv
    have h2 : ¬ 2 ≤ k / s := by
      intro h2
      rcases Nat.eq_zero_or_pos s with rfl | hs
      · omega
      · have := (Nat.le_div_iff_mul_le hs).1 h2
        omega
    simp only [h2, and_false, if_false]

/-- **C329.** As long as training takes no more than `2 * stats_step + 1` steps, plots make no difference, whatever is drawn: the first plot is made at the
second evaluation, after its validation rows are drawn. -/
theorem C329_short (c : Cfg P O K) (vl : P → List ℕ → Option K) (r : Rng G) (p0 : P) (o0 : O) (self0 : P) (g : G)
    (h : c.nEpochs * numBatches c ≤ 2 * c.statsStep + 1) :
    fit c vl r true p0 o0 self0 g = fit c vl r false p0 o0 self0 g := by
  rw [fit_eq, fit_eq]
  apply fit_congr
  · intro e he hm
    have h1 : (e + 1) * numBatches c ≤ c.nEpochs * numBatches c := Nat.mul_le_mul_right _ he
    rw [Nat.succ_mul] at h1
    rw [drawnPerm, drawnPerm, before_same _ _ _ _ _ (by omega)]
  · intro k hk
    funext p
    rw [drawnLoss, drawnLoss, during, during, before_same _ _ _ _ _ (by omega)]

/-- **C329.** With plots and without, the first epoch trains on the same batches, those of the first order drawn; early stopping can only cut them short. After
a run of one epoch the parameters are those trained on the first so many of them. -/
theorem C329_first_epoch (c : Cfg P O K) (vl : P → List ℕ → Option K) (r : Rng G) (plots : Bool) (p0 : P) (o0 : O) (self0 : P) (g : G) (st : St P O K)
    (fin : Bool) (p : P) (h : fit c vl r plots p0 o0 self0 g = .ok (st, fin, p)) :
    st.steps.take (c.n / bs c) <+: (List.range (c.n / bs c)).map (fun i => ((r.shuffle g).1.drop (i * bs c)).take (bs c)) ∧
    (c.nEpochs = 1 → fin = false → st.steps = (List.range (c.n / bs c)).map (fun i => ((r.shuffle g).1.drop (i * bs c)).take (bs c))) ∧
    st.pars = (st.steps.foldl (fun q rows => c.step q.1 q.2 rows) (p0, o0)).1 := by
  rw [fit_eq] at h
  obtain ⟨h1, h2, _, h4⟩ := C68_steps _ _ _ _ _ _ _ h
  have hb : epochBatches (given c (drawnPerm c.statsStep (numBatches c) r plots g) (drawnLoss c.statsStep (numBatches c) vl r plots g)) 0 =
      (List.range (c.n / bs c)).map (fun i => ((r.shuffle g).1.drop (i * bs c)).take (bs c)) := by
    change (List.range (numBatches c)).map (batch (drawnPerm c.statsStep (numBatches c) r plots g 0) (bs c)) = _
    rw [drawnPerm, Nat.zero_mul]
    rfl
  refine ⟨?_, ?_, h4⟩
  · rw [← hb]
    change st.steps <+: (List.range c.nEpochs).flatMap _ at h1
    have hlen : (epochBatches (given c (drawnPerm c.statsStep (numBatches c) r plots g) (drawnLoss c.statsStep (numBatches c) vl r plots g)) 0).length = c.n / bs c := by
      rw [hb]; simp
    cases hn : c.nEpochs with
    | zero =>
      rw [hn] at h1
      have : st.steps = [] := by simpa using h1
      rw [this]
      simp
    | succ n =>
      rw [hn, List.range_succ_eq_map, List.flatMap_cons] at h1
      exact List.prefix_of_prefix_length_le ((List.take_prefix _ _).trans h1) (List.prefix_append _ _)
        (by rw [hlen, List.length_take]; exact Nat.min_le_left _ _)
  · intro hn hf
    have h5 : st.steps = (List.range c.nEpochs).flatMap _ := h2 hf
    rw [h5, hn]
    simpa using hb

end PyF.NNSeed
