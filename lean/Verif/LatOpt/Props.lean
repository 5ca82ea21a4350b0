import Verif.LatOpt.Lemmas
import Mathlib.Tactic.Linarith
import Mathlib.Tactic.Positivity
import Mathlib.Tactic.NormNum
import Mathlib.Tactic.FieldSimp

/-! Properties C209-C211. -/

namespace PyF.LatOpt
open PyF

variable {X U E Z S K P : Type}

theorem solve_eq (o : Opt E S) (c : Compiled X E K) (n : Net X U E Z) (x : X) (u : U) (kw : K) (nIter : ℕ) (tol : ℚ) :
    (nIter < 10 → solve o c n x u kw nIter tol = .error .unboundLocalError) ∧
    (10 ≤ nIter → ∃ r, solve o c n x u kw nIter tol = .ok r ∧
      Spec.Outcome (Spec.point (o.step c.vanilla (c.value x kw 0)) (n.encode x u) (o.init (n.encode x u))) (c.value x kw 0) nIter tol
        r.embedding r.value r.ctrlHist ∧
      r.solHist = r.ctrlHist.map (n.pred x) ∧ r.ctrl = n.decode x r.embedding ∧ r.target = n.predict x r.ctrl) := by
  constructor
  · intro h
    unfold solve
    simp only
    rw [if_pos (by omega)]
  · intro h
    set pt := Spec.point (o.step c.vanilla (c.value x kw 0)) (n.encode x u) (o.init (n.encode x u)) with hpt
    have hb := iterate_eq o c x kw (n.encode x u) (o.init (n.encode x u)) 0 0
    rw [← hpt] at hb
    obtain ⟨d, h1, h2, h3, hh, h4, h5⟩ := loop_eq o c n x kw tol (n.encode x u) (o.init (n.encode x u)) (nIter / 10) 0 pt hpt (by omega)
    have hr : solve o c n x u kw nIter tol = .ok
        { ctrl := n.decode x (pt (10 * (d + 1))), target := n.predict x (n.decode x (pt (10 * (d + 1)))),
          value := c.value x kw 0 (pt (10 * d + 9)), embedding := pt (10 * (d + 1)),
          ctrlHist := (List.range (10 * hh)).map pt, solHist := ((List.range (10 * hh)).map pt).map (n.pred x) } := by
      unfold solve
      simp only
      rw [if_neg (by omega)]
      have h0 : n.encode x u = pt (10 * 0) := rfl
      rw [show iterate o c x kw (n.encode x u) (o.init (n.encode x u)) 0 =
        iterate o c x kw (pt (10 * 0)) (o.init (n.encode x u)) 0 from rfl, hb]
      simp only
      have e : (List.range 10).map (fun j => pt (10 * 0 + j)) = (List.range (10 * (0 + 1))).map pt := by simp
      rw [e]
      have h4' := h4
      simp only [Nat.zero_add] at h4' ⊢
      rw [h4']
    refine ⟨_, hr, ⟨d, hh, h1, h2, ?_, rfl, rfl, rfl, ?_⟩, rfl, rfl, rfl⟩
    · intro j g1 g2
      exact not_lt.1 (h3 j (by omega) (by omega))
    · simp only [Nat.zero_add] at h5
      rcases h5 with h5 | ⟨g1, g2, g3⟩
      · exact Or.inl h5
      · exact Or.inr ⟨g1, g2, not_lt.1 g3⟩

/-- The user's objective along the latent space. -/
def latent (n : Net X U E Z) (objective : K → Z → U → ℚ) (x : X) (kw : K) (e : E) : ℚ := objective kw (n.pred x e) (n.decode x e)

/-- **C209.** `optimize` (compiling anew) raises UnboundLocalError iff fewer than ten iterations are asked for. Otherwise it
follows the optimiser on the user's objective of latent prediction and decoded controls, from the embedding of the controls
given, its memory reset after every ten steps; the value returned belongs to the point one step before the embedding returned;
the embedding returned is not in the history, nor are the ten points before it if the search stopped early. -/
theorem C209_optimize (o : Opt E S) (net : P → Net X U E Z) (reg : E → E → ℚ) (ob : Obj P X E K) (q : Call X U Z K)
    (hq : q.recompile = true) :
    (q.nIter < 10 → (optimize o net reg ob q).2 = .error .unboundLocalError) ∧
    (10 ≤ q.nIter → ∃ r, (optimize o net reg ob q).2 = .ok r ∧
      Spec.Outcome
        (Spec.point (o.step q.vanilla (latent (net ob.pars) q.objective q.x q.kw)) ((net ob.pars).encode q.x q.u)
          (o.init ((net ob.pars).encode q.x q.u)))
        (latent (net ob.pars) q.objective q.x q.kw) q.nIter q.tol r.embedding r.value r.ctrlHist ∧
      r.solHist = r.ctrlHist.map ((net ob.pars).pred q.x) ∧ r.ctrl = (net ob.pars).decode q.x r.embedding ∧
      r.target = (net ob.pars).pred q.x ((net ob.pars).encode q.x r.ctrl)) := by
  have h := solve_eq o (compiledFor net reg ob q) (net ob.pars) q.x q.u q.kw q.nIter q.tol
  have hv : (compiledFor net reg ob q).value q.x q.kw 0 = latent (net ob.pars) q.objective q.x q.kw := by
    unfold compiledFor
    simp only [hq, if_true]
    funext e
    simp [objectiveAt, latent]
  have hg : (compiledFor net reg ob q).vanilla = q.vanilla := by
    unfold compiledFor
    simp only [hq, if_true]
  rw [hv, hg] at h
  exact h

/-- Compiled functions that agree where they are used: without a weight on the distance. -/
def Agree (a b : Option (Compiled X E K)) : Prop :=
  match a, b with
  | none, none => True
  | some c, some c' => c.vanilla = c'.vanilla ∧ ∀ x kw e, c.value x kw 0 e = c'.value x kw 0 e
  | _, _ => False

theorem iterate_congr (o : Opt E S) (c c' : Compiled X E K) (hv : c.vanilla = c'.vanilla) (h : ∀ x kw e, c.value x kw 0 e = c'.value x kw 0 e)
    (x : X) (kw : K) (y : E) (s : S) : iterate o c x kw y s 0 = iterate o c' x kw y s 0 := by
  unfold iterate
  have e : c.value x kw 0 = c'.value x kw 0 := funext (h x kw)
  rw [hv, e]

theorem loop_congr (o : Opt E S) (c c' : Compiled X E K) (hv : c.vanilla = c'.vanilla) (h : ∀ x kw e, c.value x kw 0 e = c'.value x kw 0 e)
    (n : Net X U E Z) (x : X) (kw : K) (tol : ℚ) (s : S) (k : ℕ) (r : Run E Z) (hr : r.lagrangian = 0) :
    loop o c n x kw tol s k r = loop o c' n x kw tol s k r := by
  induction k generalizing r with
  | zero => rfl
  | succ k ih =>
    rw [loop, loop, hr, iterate_congr o c c' hv h]
    split
    · rfl
    · exact ih _ rfl

theorem solve_congr (o : Opt E S) (c c' : Compiled X E K) (hv : c.vanilla = c'.vanilla) (h : ∀ x kw e, c.value x kw 0 e = c'.value x kw 0 e)
    (n : Net X U E Z) (x : X) (u : U) (kw : K) (nIter : ℕ) (tol : ℚ) : solve o c n x u kw nIter tol = solve o c' n x u kw nIter tol := by
  unfold solve
  simp only
  rw [iterate_congr o c c' hv h, loop_congr o c c' hv h]
  rfl

theorem history_congr (o : Opt E S) (net : P → Net X U E Z) (reg reg' : E → E → ℚ) (es : List (Event P X U Z K)) (p : P)
    (a b : Option (Compiled X E K)) (hab : Agree a b) :
    (history o net reg { pars := p, compiled := a } es).2 = (history o net reg' { pars := p, compiled := b } es).2 := by
  induction es generalizing p a b with
  | nil => rfl
  | cons ev es ih =>
    cases ev with
    | train p' => exact ih p' a b hab
    | optimize q =>
      have hc : Agree (some (compiledFor net reg { pars := p, compiled := a } q)) (some (compiledFor net reg' { pars := p, compiled := b } q)) := by
        unfold compiledFor
        simp only
        by_cases hq : q.recompile = true
        · simp [hq, Agree, objectiveAt]
        · simp only [hq, Bool.false_eq_true, if_false]
          cases a with
          | none =>
            cases b with
            | none => simp [Agree, objectiveAt]
            | some c' => exact absurd hab (by simp [Agree])
          | some c =>
            cases b with
            | none => exact absurd hab (by simp [Agree])
            | some c' => exact hab
      have h1 : (optimize o net reg { pars := p, compiled := a } q).2 = (optimize o net reg' { pars := p, compiled := b } q).2 :=
        solve_congr o _ _ hc.1 hc.2 _ _ _ _ _ _
      have h2 := ih p _ _ hc
      simp only [history]
      rw [h1]
      congr 1

/-- **C210.** The distance between an embedding and its reconstruction has no weight: in every history of calls and trainings
the results are the same whatever that distance is. -/
theorem C210_no_weight (o : Opt E S) (net : P → Net X U E Z) (reg reg' : E → E → ℚ) (p : P) (es : List (Event P X U Z K)) :
    (history o net reg { pars := p, compiled := none } es).2 = (history o net reg' { pars := p, compiled := none } es).2 :=
  history_congr o net reg reg' es p none none trivial

/-- **C210.** If encoding the decoded controls gives back the embedding found, the prediction returned is the latent one. -/
theorem C210_consistent (o : Opt E S) (net : P → Net X U E Z) (reg : E → E → ℚ) (ob : Obj P X E K) (q : Call X U Z K) (r : Result U E Z)
    (h : (optimize o net reg ob q).2 = .ok r)
    (he : (net ob.pars).encode q.x ((net ob.pars).decode q.x r.embedding) = r.embedding) :
    r.target = (net ob.pars).pred q.x r.embedding ∧
    q.objective q.kw r.target r.ctrl = latent (net ob.pars) q.objective q.x q.kw r.embedding := by
  have hs := solve_eq o (compiledFor net reg ob q) (net ob.pars) q.x q.u q.kw q.nIter q.tol
  rcases Nat.lt_or_ge q.nIter 10 with h10 | h10
  · have := hs.1 h10
    unfold optimize at h
    simp only at h
    rw [this] at h
    exact absurd h (by simp)
  · obtain ⟨r', hr', -, -, hc, ht⟩ := hs.2 h10
    unfold optimize at h
    simp only at h
    rw [hr'] at h
    simp only [Except.ok.injEq] at h
    subst h
    have : r'.target = (net ob.pars).pred q.x r'.embedding := by rw [ht, hc, Net.predict, he]
    exact ⟨this, by rw [this, hc]; rfl⟩

/-- A network whose encoder is off by `c`: prediction `u + c` for controls `u`, decoder the identity. -/
def shifted (c : ℚ) : Net Unit ℚ ℚ ℚ := { encode := fun _ u => u + c, decode := fun _ e => e, pred := fun _ e => e }

/-- The plain gradient step of length 0.1 on the square. -/
def gradSquare : Opt ℚ Unit := { init := fun _ => (), step := fun _ _ e _ => (e - 1 / 10 * (2 * e), ()) }

/-- Minimise the squared prediction, from controls 0. -/
def callSquare (nIter : ℕ) (tol : ℚ) : Call Unit ℚ ℚ Unit :=
  { x := (), u := 0, objective := fun _ z _ => z ^ 2, kw := (), nIter := nIter, tol := tol, recompile := true, vanilla := true }

theorem point_square (f : ℚ → ℚ) (c : ℚ) (k : ℕ) : Spec.point (gradSquare.step true f) c () k = (4 / 5) ^ k * c := by
  induction k with
  | zero => simp [Spec.point, Spec.traj]
  | succ k ih =>
    unfold Spec.point at *
    simp only [Spec.traj]
    rw [ih]
    simp only [gradSquare]
    ring

/-- **C210.** Otherwise the controls returned can be worse than those given, though every step decreased the
objective in the latent space and the value returned is less than a thousandth of that at the start: for
every `c > 0`, number of iterations and tolerance, minimising the square of the prediction `u + c` from `u = 0`. -/
theorem C210_worse (c : ℚ) (hc : 0 < c) (reg : ℚ → ℚ → ℚ) (nIter : ℕ) (hn : 10 ≤ nIter) (tol : ℚ) :
    ∃ r, (optimize gradSquare (fun _ : Unit => shifted c) reg { pars := (), compiled := none } (callSquare nIter tol)).2 = .ok r ∧
      ((shifted c).predict () 0) ^ 2 = c ^ 2 ∧ r.value < c ^ 2 / 1000 ∧ c ^ 2 < r.target ^ 2 := by
  obtain ⟨r, hr, ⟨d, h, h1, -, -, he, hv, -, -⟩, -, hctrl, ht⟩ :=
    (C209_optimize gradSquare (fun _ : Unit => shifted c) reg { pars := (), compiled := none } (callSquare nIter tol) rfl).2 hn
  have hpt : ∀ k, Spec.point (gradSquare.step (callSquare nIter tol).vanilla (latent (shifted c) (callSquare nIter tol).objective () ()))
      ((shifted c).encode () 0) (gradSquare.init ((shifted c).encode () 0)) k = (4 / 5) ^ k * c := by
    intro k
    have : (shifted c).encode () 0 = c := by simp [shifted]
    rw [this]
    exact point_square _ c k
  have he' : r.embedding = (4 / 5) ^ (10 * (d + 1)) * c := by rw [he]; exact hpt _
  have hv' : r.value = ((4 / 5) ^ (10 * d + 9) * c) ^ 2 := by
    rw [hv]
    have := hpt (10 * d + 9)
    simp only [latent, callSquare, shifted] at this ⊢
    rw [this]
  have hpos : 0 < r.embedding := by rw [he']; positivity
  have ht' : r.target = r.embedding + c := by
    rw [ht, hctrl]
    rfl
  have hsmall : r.value < c ^ 2 / 1000 := by
    rw [hv', mul_pow, ← pow_mul]
    have hle : ((4 : ℚ) / 5) ^ ((10 * d + 9) * 2) ≤ (4 / 5) ^ 38 := pow_le_pow_of_le_one (by norm_num) (by norm_num) (by omega)
    have h38 : ((4 : ℚ) / 5) ^ 38 < 1 / 1000 := by norm_num
    have hc2 : 0 < c ^ 2 := by positivity
    nlinarith
  have hbig : c ^ 2 < r.target ^ 2 := by
    rw [ht']
    nlinarith
  refine ⟨r, hr, ?_, hsmall, hbig⟩
  simp [Net.predict, shifted]

/-- No later call compiles anew. -/
def Reuses : Event P X U Z K → Prop
  | .optimize q => q.recompile = false
  | .train _ => True

theorem history_reuses (o : Opt E S) (net : P → Net X U E Z) (reg : E → E → ℚ) (es : List (Event P X U Z K)) (hes : ∀ e ∈ es, Reuses e)
    (ob : Obj P X E K) (c : Compiled X E K) (hc : ob.compiled = some c) : (history o net reg ob es).1.compiled = some c := by
  induction es generalizing ob with
  | nil => exact hc
  | cons ev es ih =>
    cases ev with
    | train p => exact ih (fun e he => hes e (by simp [he])) _ hc
    | optimize q =>
      have hq : q.recompile = false := hes (.optimize q) (by simp)
      have : (optimize o net reg ob q).1.compiled = some c := by
        unfold optimize compiledFor
        simp [hq, hc]
      exact ih (fun e he => hes e (by simp [he])) _ this

/-- Parameters after a history: those of the last training. -/
def lastPars (p : P) : List (Event P X U Z K) → P
  | [] => p
  | .train p' :: es => lastPars p' es
  | .optimize _ :: es => lastPars p es

theorem history_pars (o : Opt E S) (net : P → Net X U E Z) (reg : E → E → ℚ) (es : List (Event P X U Z K)) (ob : Obj P X E K) :
    (history o net reg ob es).1.pars = lastPars ob.pars es := by
  induction es generalizing ob with
  | nil => rfl
  | cons ev es ih =>
    cases ev with
    | train p => exact ih _
    | optimize q => exact ih _

/-- **C211.** With `recompile_obj=False` a later call on the same object follows the optimiser on the objective of the first
call, with its kind of step and with the network as it was then, even after further training; only the keyword arguments,
inputs, start, decoding and prediction are those of the call. -/
theorem C211_stale (o : Opt E S) (net : P → Net X U E Z) (reg : E → E → ℚ) (p : P) (q0 q : Call X U Z K) (es : List (Event P X U Z K))
    (hes : ∀ e ∈ es, Reuses e) (hq : q.recompile = false) (hn : 10 ≤ q.nIter) :
    ∃ r, (optimize o net reg (history o net reg { pars := p, compiled := none } (.optimize q0 :: es)).1 q).2 = .ok r ∧
      Spec.Outcome
        (Spec.point (o.step q0.vanilla (latent (net p) q0.objective q.x q.kw)) ((net (lastPars p es)).encode q.x q.u)
          (o.init ((net (lastPars p es)).encode q.x q.u)))
        (latent (net p) q0.objective q.x q.kw) q.nIter q.tol r.embedding r.value r.ctrlHist ∧
      r.ctrl = (net (lastPars p es)).decode q.x r.embedding ∧ r.target = (net (lastPars p es)).predict q.x r.ctrl := by
  set ob := (history o net reg { pars := p, compiled := none } (.optimize q0 :: es)).1 with hob
  have hp : ob.pars = lastPars p es := history_pars o net reg (.optimize q0 :: es) { pars := p, compiled := none }
  obtain ⟨c, hc1, hc2, hc3⟩ : ∃ c : Compiled X E K, ob.compiled = some c ∧ c.vanilla = q0.vanilla ∧
      ∀ x kw, c.value x kw 0 = latent (net p) q0.objective x kw := by
    refine ⟨{ value := fun x kw w e => objectiveAt (net p) reg q0.objective x kw w e, vanilla := q0.vanilla }, ?_, rfl, ?_⟩
    · apply history_reuses o net reg es hes
      unfold optimize compiledFor
      simp
    · intro x kw
      funext e
      simp [objectiveAt, latent]
  have hcf : compiledFor net reg ob q = c := by
    unfold compiledFor
    simp [hq, hc1]
  obtain ⟨r, hr, hout, -, h3, h4⟩ := (solve_eq o (compiledFor net reg ob q) (net ob.pars) q.x q.u q.kw q.nIter q.tol).2 hn
  refine ⟨r, hr, ?_, by rw [h3, hp], by rw [h4, hp]⟩
  rw [hcf, hc2, hc3, hp] at hout
  exact hout

end PyF.LatOpt
