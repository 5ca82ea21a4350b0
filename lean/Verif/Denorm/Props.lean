import Verif.Denorm.Model
import Verif.Normalize.Props
import Verif.FmtNorm.Props

/-! Properties C258 and C259. -/

namespace PyF.Denorm

open PyF PyF.Names PyF.Normalize PyF.FmtNorm

variable {N : Type}

/-! ### Specification -/

/-- The formatter has both expressions and the second undoes the first for the normalisers of `x`; the frame has the columns denormalising needs. -/
structure Usable (f : Formatter N) (g d : N → ℚ → ℚ) (x : Frame) : Prop where
  norm : f.norm = some g
  denorm : f.denorm = some d
  some_target : f.targetNames ≠ []
  inverse : ∀ r ∈ f.rowsOf x, ∀ v, d r (g r v) = v
  names : ∀ n ∈ f.names, ∃ col, (n, col) ∈ x
  features : ∀ m ∈ f.ms, ∀ c n, (c, n) ∈ m → ∃ col, (c, col) ∈ x

/-- One value per row of `x`. -/
def Aligned (f : Formatter N) (x y : Frame) : Prop := ∀ p ∈ y, p.2.length = (f.rowsOf x).length

/-- How often a target column goes through an expression. -/
def times (f : Formatter N) (c : Str) : ℕ := f.targetNames.dedup.length * f.metaCols.count c

/-- `y` is the target `y0` in normalised units. -/
def Normalised (f : Formatter N) (g : N → ℚ → ℚ) (x y0 y : Frame) : Prop :=
  (∀ c ∈ f.metaCols, ∃ col, (c, col) ∈ y0) ∧
    List.Forall₂ (fun p q : Str × List ℚ => q.1 = p.1 ∧ q.2 = List.zipWith (fun r v => (g r)^[times f p.1] v) (f.rowsOf x) p.2) y0 y

/-- Differences of two frames of the same shape, by position. -/
def Differences (y p : Frame) (e : List (List ℚ)) : Prop :=
  e.length = min y.length p.length ∧ ∀ (j : ℕ) (a b : Str × List ℚ), y[j]? = some a → p[j]? = some b →
    ∃ col : List ℚ, e[j]? = some col ∧ col.length = min a.2.length b.2.length ∧ ∀ (i : ℕ) (u v : ℚ), a.2[i]? = some u → b.2[i]? = some v → col[i]? = some (u - v)

/-! ### Lemmas -/

theorem errCols_spec (y p : Frame) : Differences y p (errCols y p) := by
  unfold errCols
  refine ⟨by simp, ?_⟩
  intro j a b ha hb
  refine ⟨List.zipWith (fun u v => u - v) a.2 b.2, ?_, by simp, ?_⟩
  · rw [List.getElem?_zipWith, ha, hb]
  · intro i u v hu hv
    rw [List.getElem?_zipWith, hu, hv]

theorem antiTransform_some (f : Formatter N) (g d : N → ℚ → ℚ) (x : Frame) (h : Usable f g d x) (y : Frame) (hm : ∀ c ∈ f.metaCols, ∃ col, (c, col) ∈ y) :
    ∃ p, antiTransform (some f) x y = .ok p ∧ Normalize.denormalize (f.setting x) y = .ok p := by
  have hok : ∃ r, denormalizeBoth (f.setting x) f.names f.ms x y = .ok r :=
    (C148_ok_iff (f.setting x) g d h.norm h.denorm h.some_target f.names f.ms x y).2
      ⟨h.names, hm, fun c ⟨m, hmm, n, hn⟩ => h.features m hmm c n hn⟩
  obtain ⟨r, hr⟩ := hok
  refine ⟨r, ?_, C148_value _ _ _ _ _ _ hr⟩
  unfold antiTransform
  simp only [h.denorm]
  exact hr

theorem inner_passed (f : Formatter N) (g d : N → ℚ → ℚ) (x : Frame) (h : Usable f g d x) (y p : Frame) (hy : Aligned f x y)
    (hp : Normalize.denormalize (f.setting x) y = .ok p) :
    List.Forall₂ (fun p q : Str × List ℚ => q.1 = p.1 ∧ q.2 = List.zipWith (fun r v => (d r)^[times f p.1] v) (f.rowsOf x) p.2) y p := by
  unfold Normalize.denormalize Normalize.normalize at hp
  have hd : (f.setting x).denorm = some d := h.denorm
  have hn : (f.setting x).norm = some g := h.norm
  rw [hd, hn] at hp
  have := assignAll_passed d (f.rowsOf x) _ (fun _ => 0) y y p (Passed.refl d (f.rowsOf x) y hy) hp
  simp only [Nat.zero_add, count_flatMap_const] at this
  exact this

theorem normalised_round (f : Formatter N) (g d : N → ℚ → ℚ) (x : Frame) (h : Usable f g d x) (y0 y : Frame) (hy : Aligned f x y0) (hn : Normalised f g x y0 y) :
    antiTransform (some f) x y = .ok y0 := by
  obtain ⟨hm, hp⟩ := hn
  have hm' : ∀ c ∈ f.metaCols, ∃ col, (c, col) ∈ y := fun c hc => any_of_passed (k := times f) hp c (hm c hc)
  have hwf : Aligned f x y := passed_wf (k := times f) hp hy
  obtain ⟨r, hr, hr'⟩ := antiTransform_some f g d x h y hm'
  have h2 := inner_passed f g d x h y r hwf hr'
  rw [hr, passed_passed g d (f.rowsOf x) (times f) h.inverse y0 y r hy hp h2]

/-! ### C258 -/

/-- C258 (regressors): the forecast is what the models put out, taken back to the units of the data entry by entry, and the errors behind quantiles and scenarios are the original targets minus
this forecast. -/
theorem C258_regressor (f : Formatter N) (g d : N → ℚ → ℚ) (x : Frame) (h : Usable f g d x) (raw : Frame → Frame) (hcols : ∀ c ∈ f.metaCols, ∃ col, (c, col) ∈ raw x)
    (hraw : Aligned f x (raw x)) (y0 y : Frame) (hy : Aligned f x y0) (hn : Normalised f g x y0 y) :
    ∃ p e, predict ⟨some f, .regressor, raw⟩ x = .ok p ∧ fitErrs ⟨some f, .regressor, raw⟩ x y = .ok e ∧ Differences y0 p e ∧
      List.Forall₂ (fun a b : Str × List ℚ => b.1 = a.1 ∧ b.2 = List.zipWith (fun r v => (d r)^[times f a.1] v) (f.rowsOf x) a.2) (raw x) p := by
  obtain ⟨p, hp, hp'⟩ := antiTransform_some f g d x h (raw x) hcols
  refine ⟨p, errCols y0 p, hp, ?_, errCols_spec y0 p, inner_passed f g d x h (raw x) p hraw hp'⟩
  unfold fitErrs
  rw [normalised_round f g d x h y0 y hy hn]
  show (match predict ⟨some f, .regressor, raw⟩ x with | .error e => Except.error e | .ok p => .ok (errCols y0 p)) = _
  rw [show predict ⟨some f, .regressor, raw⟩ x = .ok p from hp]

/-- C258 (regressors that reproduce the normalised target): forecasts are the original target. -/
theorem C258_regressor_exact (f : Formatter N) (g d : N → ℚ → ℚ) (x : Frame) (h : Usable f g d x) (raw : Frame → Frame) (y0 y : Frame) (hy : Aligned f x y0)
    (hn : Normalised f g x y0 y) (hexact : raw x = y) : predict ⟨some f, .regressor, raw⟩ x = .ok y0 := by
  show antiTransform (some f) x (raw x) = _
  rw [hexact]
  exact normalised_round f g d x h y0 y hy hn

/-- C258 (networks, defect): forecasts stay in normalised units while the errors are original targets minus them. A network that reproduces the normalised target forecasts the original one
iff normalising changes nothing; its errors are then the original minus the normalised targets. -/
theorem C258_network (f : Formatter N) (g d : N → ℚ → ℚ) (x : Frame) (h : Usable f g d x) (raw : Frame → Frame) (y0 y : Frame) (hy : Aligned f x y0) (hn : Normalised f g x y0 y) :
    predict ⟨some f, .network, raw⟩ x = .ok (raw x) ∧ (∃ e, fitErrs ⟨some f, .network, raw⟩ x y = .ok e ∧ Differences y0 (raw x) e) ∧
      (raw x = y → (predict ⟨some f, .network, raw⟩ x = .ok y0 ↔
        ∀ p ∈ y0, ∀ (i : ℕ) (r : N) (v : ℚ), (f.rowsOf x)[i]? = some r → p.2[i]? = some v → (g r)^[times f p.1] v = v)) := by
  refine ⟨rfl, ⟨errCols y0 (raw x), ?_, errCols_spec _ _⟩, ?_⟩
  · unfold fitErrs
    rw [normalised_round f g d x h y0 y hy hn]
    rfl
  · intro hexact
    show (Except.ok (raw x) = Except.ok y0) ↔ _
    rw [hexact]
    obtain ⟨-, hp⟩ := hn
    generalize times f = k at hp ⊢
    have key : y = y0 ↔ ∀ p ∈ y0, ∀ (i : ℕ) (r : N) (v : ℚ), (f.rowsOf x)[i]? = some r → p.2[i]? = some v → (g r)^[k p.1] v = v := by
      have hcol : ∀ (a : Str × List ℚ), a.2.length = (f.rowsOf x).length →
          (List.zipWith (fun r v => (g r)^[k a.1] v) (f.rowsOf x) a.2 = a.2 ↔ ∀ (i : ℕ) (r : N) (v : ℚ), (f.rowsOf x)[i]? = some r → a.2[i]? = some v → (g r)^[k a.1] v = v) := by
        intro a ha
        constructor
        · intro he i r v hr hv
          have := congrArg (fun l : List ℚ => l[i]?) he
          simp only [List.getElem?_zipWith, hr, hv] at this
          exact Option.some.inj this
        · intro hall
          apply List.ext_getElem?
          intro i
          rw [List.getElem?_zipWith]
          cases hv : a.2[i]? with
          | none =>
            have : (f.rowsOf x)[i]? = none := by
              rw [List.getElem?_eq_none_iff] at hv ⊢
              omega
            rw [this]
          | some v =>
            have hlt : i < (f.rowsOf x).length := by
              have := (List.getElem?_eq_some_iff.1 hv).1
              omega
            rw [List.getElem?_eq_getElem hlt]
            exact congrArg some (hall i _ v (List.getElem?_eq_getElem hlt) hv)
      have hal : ∀ p ∈ y0, p.2.length = (f.rowsOf x).length := hy
      clear hexact
      induction hp with
      | nil => simp
      | @cons a b l m hr _ ih =>
        have ih' := ih (fun p hp => hal p (List.mem_cons_of_mem _ hp)) (fun p hp => hal p (List.mem_cons_of_mem _ hp))
        rw [List.cons.injEq, List.forall_mem_cons]
        refine and_congr ?_ ih'
        rw [← hcol a (hal a List.mem_cons_self), ← hr.2]
        exact ⟨fun e => by rw [e], fun e => Prod.ext hr.1 e⟩
    exact ⟨fun e => key.1 (Except.ok.inj e), fun e => congrArg Except.ok (key.2 e)⟩

/-- C258 (no normalisation): without a formatter or a denormalising expression both families return what their models put out and measure errors against the targets given. -/
theorem C258_plain (fm : Option (Formatter N)) (hfm : ∀ f, fm = some f → f.denorm = none) (fam : Family) (raw : Frame → Frame) (x y : Frame) :
    predict ⟨fm, fam, raw⟩ x = .ok (raw x) ∧ ∃ e, fitErrs ⟨fm, fam, raw⟩ x y = .ok e ∧ Differences y (raw x) e := by
  have ha : ∀ z, antiTransform fm x z = .ok z := by
    intro z
    unfold antiTransform
    cases fm with
    | none => rfl
    | some f => simp only [hfm f rfl]
  have hp : predict ⟨fm, fam, raw⟩ x = .ok (raw x) := by
    unfold predict
    cases fam with
    | regressor => exact ha _
    | network => rfl
  refine ⟨hp, errCols y (raw x), ?_, errCols_spec _ _⟩
  unfold fitErrs
  rw [show antiTransform (Fc.fm ⟨fm, fam, raw⟩) x y = .ok y from ha y]
  simp only [hp]

/-! ### C259 -/

/-- C259 (defect): fitting a persistent benchmark with a formatter that normalises works iff the formatter has no target column and the frame has all normalisers and features; every other fit is a
KeyError, whatever the data. -/
theorem C259_persistent (f : Formatter N) (g d : N → ℚ → ℚ) (hg : f.norm = some g) (hd : f.denorm = some d) (hne : f.targetNames ≠ []) (x : Frame) (hw : List (ℕ × List ℚ)) :
    (persistentFit (some f) x hw = .ok () ↔ f.metaCols = [] ∧ (∀ n ∈ f.names, ∃ col, (n, col) ∈ x) ∧ ∀ m ∈ f.ms, ∀ c n, (c, n) ∈ m → ∃ col, (c, col) ∈ x) ∧
      (persistentFit (some f) x hw ≠ .ok () → persistentFit (some f) x hw = .error .keyError) := by
  have hiff := C148_ok_iff (f.setting x) g d hg hd hne f.names f.ms x (reachable hw)
  have ha : antiTransform (some f) x (reachable hw) = denormalizeBoth (f.setting x) f.names f.ms x (reachable hw) := by
    unfold antiTransform; simp only [hd]
  unfold persistentFit
  rw [ha]
  cases hb : denormalizeBoth (f.setting x) f.names f.ms x (reachable hw) with
  | error e =>
    refine ⟨Iff.intro (fun h => by cases h) (fun h => ?_), fun _ => ?_⟩
    · obtain ⟨h1, h2, h3⟩ := h
      exfalso
      obtain ⟨r, hr⟩ := hiff.2 ⟨h2, by intro c hc; exact absurd (show c ∈ f.metaCols from hc) (by rw [h1]; exact List.not_mem_nil), fun c ⟨m, hm, n, hn⟩ => h3 m hm c n hn⟩
      rw [hb] at hr
      cases hr
    · rw [C148_error _ _ _ _ _ e hb]
  | ok r =>
    refine ⟨⟨fun _ => ?_, fun _ => rfl⟩, fun h => absurd rfl h⟩
    obtain ⟨h1, h2, h3⟩ := hiff.1 ⟨r, hb⟩
    refine ⟨?_, h1, fun m hm c n hn => h3 c ⟨m, hm, n, hn⟩⟩
    by_contra hc
    obtain ⟨c, hc⟩ := List.exists_mem_of_ne_nil _ hc
    obtain ⟨_, hm⟩ := h2 c hc
    cases hm

end PyF.Denorm
