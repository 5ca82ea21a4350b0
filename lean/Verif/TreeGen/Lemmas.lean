import Verif.TreeGen.Model
import Verif.TreeBuild.Props

namespace PyF.TreeGen
open PyF Scenred TreeBuild TreeInit

variable {m : ℕ}

/-- Two trees with the same times and parents at every label. -/
def SameShape (A B : List (Node ℚ)) : Prop := A.map (fun x => (x.t, x.parent)) = B.map (fun x => (x.t, x.parent))

theorem SameShape.length {A B : List (Node ℚ)} (h : SameShape A B) : A.length = B.length := by
  have := congrArg List.length h
  simpa using this

theorem SameShape.get {A B : List (Node ℚ)} (h : SameShape A B) (k : ℕ) : (A[k]?).map (fun x => (x.t, x.parent)) = (B[k]?).map (fun x => (x.t, x.parent)) := by
  rw [← List.getElem?_map, ← List.getElem?_map, h]

theorem SameShape.time {A B : List (Node ℚ)} (h : SameShape A B) (k : ℕ) : (A[k]?).map (·.t) = (B[k]?).map (·.t) := by
  have h1 := congrArg (Option.map Prod.fst) (h.get k)
  rw [Option.map_map, Option.map_map] at h1
  exact h1

theorem SameShape.par {A B : List (Node ℚ)} (h : SameShape A B) (k : ℕ) : (A[k]?).bind (·.parent) = (B[k]?).bind (·.parent) := by
  have h1 := h.get k
  cases ha : A[k]? with
  | none => rw [ha] at h1; cases hb : B[k]? with
    | none => rfl
    | some y => rw [hb] at h1; cases h1
  | some x => rw [ha] at h1; cases hb : B[k]? with
    | none => rw [hb] at h1; cases h1
    | some y =>
      rw [hb] at h1
      simp only [Option.map_some, Option.some.injEq, Prod.mk.injEq] at h1
      simp [h1.2]

theorem SameShape.times {A B : List (Node ℚ)} (h : SameShape A B) : A.map (·.t) = B.map (·.t) := by
  have h1 := congrArg (List.map Prod.fst) h
  rw [List.map_map, List.map_map] at h1
  exact h1

theorem SameShape.chain {A B : List (Node ℚ)} (h : SameShape A B) (f k : ℕ) : chain A f k = chain B f k := by
  induction f generalizing k with
  | zero => rfl
  | succ f ih =>
    simp only [Scenred.chain]
    rw [h.par k]
    cases (B[k]?).bind (·.parent) with
    | none => rfl
    | some p => simp only; rw [ih]

theorem SameShape.retrieve {A B : List (Node ℚ)} (h : SameShape A B) (d : Bool) : retrieve A d = retrieve B d := by
  have h1 : maxTime A = maxTime B := by unfold maxTime; rw [h.times]
  have h2 : leaves A = leaves B := by
    unfold leaves
    rw [h.length, h1]
    apply List.filter_congr
    intro k _
    rw [h.time k]
  have h3 : ∀ k, pathTo A k = pathTo B k := by intro k; unfold pathTo; rw [h.length, h.chain]
  have h4 : A.isEmpty = B.isEmpty := by
    have := h.length
    cases A <;> cases B <;> simp_all
  unfold Scenred.retrieve
  rw [h1, h2, h4]
  simp only [h3]

theorem SameShape.childrenOf {A B : List (Node ℚ)} (h : SameShape A B) (j : ℕ) : childrenOf A j = childrenOf B j := by
  unfold TreeBuild.childrenOf
  rw [h.length]
  apply List.filter_congr
  intro k _
  rw [h.par k]

theorem SameShape.nodesAtTime {A B : List (Node ℚ)} (h : SameShape A B) (t : ℕ) : nodesAtTime A t = nodesAtTime B t := by
  unfold TreeBuild.nodesAtTime
  rw [h.length]
  apply List.filter_congr
  intro k _
  rw [h.time k]

theorem SameShape.visit {A B : List (Node ℚ)} (h : SameShape A B) (scens : ℕ → Fin m → ℚ) (t : ℕ) (st : IV m) (j : ℕ) : visit A scens t st j = visit B scens t st j := by
  unfold TreeBuild.visit
  rw [h.childrenOf]

theorem SameShape.visitAll {A B : List (Node ℚ)} (h : SameShape A B) (scens : ℕ → Fin m → ℚ) (t : ℕ) (st : IV m) (js : List ℕ) :
    visitAll A scens t st js = visitAll B scens t st js := by
  induction js generalizing st with
  | nil => rfl
  | cons j js ih =>
    simp only [TreeBuild.visitAll]
    rw [h.visit]
    cases TreeBuild.visit B scens t st j with
    | error e => rfl
    | ok st' => exact ih st'

theorem SameShape.iv {A B : List (Node ℚ)} (h : SameShape A B) (scens : ℕ → Fin m → ℚ) (k : ℕ) : TreeBuild.times A scens k = TreeBuild.times B scens k := by
  induction k with
  | zero => rfl
  | succ k ih =>
    simp only [TreeBuild.times]
    rw [ih]
    cases TreeBuild.times B scens k with
    | error e => rfl
    | ok st => simp only; rw [h.nodesAtTime, h.visitAll]

theorem SameShape.symm {A B : List (Node ℚ)} (h : SameShape A B) : SameShape B A := Eq.symm h

theorem sameShape_wf {A B : List (Node ℚ)} (h : SameShape A B) (hA : WF A) : WF B := by
  intro k x hx
  have h1 := h.get k
  rw [hx] at h1
  cases ha : A[k]? with
  | none => rw [ha] at h1; cases h1
  | some y =>
    rw [ha] at h1
    simp only [Option.map_some, Option.some.injEq, Prod.mk.injEq] at h1
    rcases hA k y ha with ⟨h2, h3, h4⟩ | ⟨p, z, h2, h3, h4, h5⟩
    · exact Or.inl ⟨h2, by rw [← h1.2, h3], by rw [← h1.1, h4]⟩
    · have h6 := h.get p
      rw [h4] at h6
      cases hb : B[p]? with
      | none => rw [hb] at h6; cases h6
      | some w =>
        rw [hb] at h6
        simp only [Option.map_some, Option.some.injEq, Prod.mk.injEq] at h6
        exact Or.inr ⟨p, w, by rw [← h1.2, h2], h3, hb, by rw [← h6.1, ← h1.1, h5]⟩

/-! ### `replaceVar` -/

theorem replaceVar_get (N : List (Node ℚ)) (vs : List ℚ) (hl : vs.length = N.length) (k : ℕ) (x : Node ℚ) (hk : N[k]? = some x) :
    ∃ v, vs[k]? = some v ∧ (replaceVar N vs)[k]? = some { x with v := v } := by
  have hlt : k < vs.length := by rw [hl]; exact (List.getElem?_eq_some_iff.1 hk).1
  refine ⟨vs[k], List.getElem?_eq_getElem hlt, ?_⟩
  unfold replaceVar
  rw [List.getElem?_map, List.getElem?_zipIdx, hk]
  simp [List.getElem?_eq_getElem hlt]

theorem replaceVar_length (N : List (Node ℚ)) (vs : List ℚ) : (replaceVar N vs).length = N.length := by
  unfold replaceVar; simp

theorem replaceVar_vals (N : List (Node ℚ)) (vs : List ℚ) (hl : vs.length = N.length) : (replaceVar N vs).map (·.v) = vs := by
  apply List.ext_getElem?
  intro k
  rw [List.getElem?_map]
  cases hk : N[k]? with
  | none =>
    have : N.length ≤ k := List.getElem?_eq_none_iff.1 hk
    rw [List.getElem?_eq_none (by rw [replaceVar_length]; exact this), List.getElem?_eq_none (by omega)]
    rfl
  | some x =>
    obtain ⟨v, h1, h2⟩ := replaceVar_get N vs hl k x hk
    rw [h1, h2]
    rfl

theorem replaceVar_shape (N : List (Node ℚ)) (vs : List ℚ) (hl : vs.length = N.length) : SameShape (replaceVar N vs) N := by
  unfold SameShape
  apply List.ext_getElem?
  intro k
  rw [List.getElem?_map, List.getElem?_map]
  cases hk : N[k]? with
  | none =>
    have : N.length ≤ k := List.getElem?_eq_none_iff.1 hk
    rw [List.getElem?_eq_none (by rw [replaceVar_length]; exact this)]
  | some x =>
    obtain ⟨v, h1, h2⟩ := replaceVar_get N vs hl k x hk
    rw [h2]
    rfl

/-! ### `describe` -/

theorem mapM_ok_of_forall {α β : Type} (f : α → Except PyErr β) (g : α → β) (l : List α) (h : ∀ a ∈ l, f a = .ok (g a)) : l.mapM f = .ok (l.map g) := by
  induction l with
  | nil => rfl
  | cons a l ih =>
    rw [List.mapM_cons, h a List.mem_cons_self, ih (fun b hb => h b (List.mem_cons_of_mem _ hb))]
    rfl

theorem mem_path_lt {N : List (Node ℚ)} {p : List ℕ} {k : ℕ} (h : IsPath N p k) : ∀ i ∈ p, i < N.length := by
  intro i hi
  obtain ⟨j, hj⟩ := List.mem_iff_getElem?.1 hi
  obtain ⟨x, hx, _⟩ := h.2 j i hj
  exact (List.getElem?_eq_some_iff.1 hx).1

theorem takeRows_getD (l : List ℚ) (ps : List ℕ) (h : ∀ p ∈ ps, p < l.length) : takeRows l ps = .ok (ps.map (fun i => l.getD i 0)) := by
  induction ps with
  | nil => rfl
  | cons p ps ih =>
    have hp : p < l.length := h p List.mem_cons_self
    simp only [takeRows]
    rw [ih (fun q hq => h q (List.mem_cons_of_mem _ hq)), List.getElem?_eq_getElem hp]
    simp [List.getD_eq_getElem?_getD, List.getElem?_eq_getElem hp]

theorem describe_spec (N : List (Node ℚ)) (h : WF N) (hne : N ≠ []) :
    ∃ (ls : List ℕ) (path : ℕ → List ℕ), (∀ k ∈ ls, IsPath N (path k) k) ∧ ls ≠ [] ∧
      retrieve N false = .ok (ls.map (fun k => (path k).map (fun (i : ℕ) => (i : Int))), ls.map (fun (i : ℕ) => (i : Int))) ∧
      describe N = .ok { tree := N, scens := ls.map (fun k => (path k).map (fun i => (N.map (·.v)).getD i 0)), idxs := ls.map (fun k => (path k).map (fun (i : ℕ) => (i : Int))),
                         vals := N.map (·.v) } := by
  obtain ⟨ls, _, h2, _, path, h4, h5, _⟩ := C50_paths N h hne
  refine ⟨ls, path, fun k hk => (h4 k hk).1, h2, h5, ?_⟩
  have ht : table (N.map (·.v)) (ls.map (fun k => (path k).map (fun (i : ℕ) => (i : Int)))) = .ok (ls.map (fun k => (path k).map (fun i => (N.map (·.v)).getD i 0))) := by
    unfold table
    rw [mapM_ok_of_forall _ (fun col => (col.map Int.toNat).map (fun i => (N.map (·.v)).getD i 0))]
    · rw [List.map_map]
      congr 1
      apply List.map_congr_left
      intro k _
      simp [Function.comp_def]
    · intro col hcol
      obtain ⟨k, hk, rfl⟩ := List.mem_map.1 hcol
      apply takeRows_getD
      intro p hp
      rw [List.map_map] at hp
      obtain ⟨i, hi, rfl⟩ := List.mem_map.1 hp
      simpa using mem_path_lt (h4 k hk).1 i hi
  unfold describe
  rw [h5]
  simp only
  rw [ht]

/-! ### Nodes that get a value -/

theorem visit_only {N : List (Node ℚ)} (hwf : WF N) {t : ℕ} {scens : ℕ → Fin m → ℚ} {st st' : IV m} {j : ℕ} {y : Node ℚ} (hj : N[j]? = some y) (hy : y.t = t)
    (hs : TreeBuild.visit N scens t st j = .ok st') (b : ℕ) (hb : t + 1 ≤ b) (h : ∀ k x, N[k]? = some x → b < x.t → st.vals k = none) :
    ∀ k x, N[k]? = some x → b < x.t → st'.vals k = none := by
  intro k x hk hx
  unfold TreeBuild.visit at hs
  cases hf : st.filters j with
  | none => rw [hf] at hs; cases hs
  | some fj =>
    rw [hf] at hs
    simp only [Except.ok.injEq] at hs
    subst hs
    simp only
    cases hi : (TreeBuild.childrenOf N j).findIdx? (· == k) with
    | none => simpa [hi] using h k x hk hx
    | some i =>
      exfalso
      have hmem : k ∈ TreeBuild.childrenOf N j := by
        obtain ⟨hl, he, _⟩ := List.findIdx?_eq_some_iff_getElem.1 hi
        have : (TreeBuild.childrenOf N j)[i] = k := by simpa using he
        rw [← this]
        exact List.getElem_mem hl
      unfold TreeBuild.childrenOf at hmem
      obtain ⟨_, hp⟩ := List.mem_filter.1 hmem
      rw [hk] at hp
      simp only [Option.bind_some, beq_iff_eq] at hp
      rcases hwf k x hk with ⟨_, h1, _⟩ | ⟨p, z, h1, _, h3, h4⟩
      · rw [h1] at hp; cases hp
      · rw [h1] at hp
        cases hp
        rw [hj] at h3
        cases h3
        omega

theorem visitAll_only {N : List (Node ℚ)} (hwf : WF N) {t : ℕ} {scens : ℕ → Fin m → ℚ} (js : List ℕ) (hjs : ∀ j ∈ js, ∃ y, N[j]? = some y ∧ y.t = t) (b : ℕ) (hb : t + 1 ≤ b) :
    ∀ st st' : IV m, TreeBuild.visitAll N scens t st js = .ok st' → (∀ k x, N[k]? = some x → b < x.t → st.vals k = none) → ∀ k x, N[k]? = some x → b < x.t → st'.vals k = none := by
  induction js with
  | nil => intro st st' hs h; cases hs; exact h
  | cons j js ih =>
    intro st st' hs h
    simp only [TreeBuild.visitAll] at hs
    obtain ⟨y, hy, hyt⟩ := hjs j List.mem_cons_self
    cases hv : TreeBuild.visit N scens t st j with
    | error e => rw [hv] at hs; cases hs
    | ok s1 =>
      rw [hv] at hs
      exact ih (fun i hi => hjs i (List.mem_cons_of_mem _ hi)) s1 st' hs (visit_only hwf hy hyt hv b hb h)

theorem times_only {N : List (Node ℚ)} (hwf : WF N) {scens : ℕ → Fin m → ℚ} (k : ℕ) : ∀ st, TreeBuild.times N scens k = .ok st →
    ∀ i x, N[i]? = some x → k < x.t → st.vals i = none := by
  have key : ∀ k b, k ≤ b → ∀ st, TreeBuild.times N scens k = .ok st → ∀ i x, N[i]? = some x → b < x.t → st.vals i = none := by
    intro k b hkb
    induction k with
    | zero =>
      intro st hs i x hi hx
      simp only [TreeBuild.times, Except.ok.injEq] at hs
      subst hs
      simp only [TreeBuild.start]
      rw [if_neg]
      rintro rfl
      rcases hwf 0 x hi with ⟨_, _, h0⟩ | ⟨p, _, _, h2, _⟩
      · omega
      · omega
    | succ k ih =>
      intro st hs
      simp only [TreeBuild.times] at hs
      cases ht : TreeBuild.times N scens k with
      | error e => rw [ht] at hs; cases hs
      | ok s1 =>
        rw [ht] at hs
        exact visitAll_only hwf _ (fun j hj => mem_nodesAtTime hj) b hkb s1 st hs (ih (by omega) s1 ht)
  exact key k k (le_refl _)

/-- Values of two trees of the same shape. -/
theorem initVals_shape {A B : List (Node ℚ)} (h : SameShape A B) (hA : WF A) (T : ℕ) (hT : 1 ≤ T) (scens : ℕ → Fin m → ℚ) :
    ∃ va vb, initVals A T scens = .ok va ∧ initVals B T scens = .ok vb ∧ va.length = A.length ∧ vb.length = B.length ∧
      ∀ (k : ℕ) (x : Node ℚ), A[k]? = some x → (x.t < T → va[k]? = vb[k]?) ∧ (T ≤ x.t → va[k]? = some x.v) := by
  obtain ⟨st, h1, h2⟩ := times_total (N := A) hA (scens := scens) (T - 1)
  have h1' : TreeBuild.times B scens (T - 1) = .ok st := by rw [← h.iv]; exact h1
  refine ⟨_, _, by unfold initVals; rw [h1], by unfold initVals; rw [h1'], by simp, by simp, ?_⟩
  have hget : ∀ (N : List (Node ℚ)) (k : ℕ) (x : Node ℚ), N[k]? = some x → (N.zipIdx.map (fun (y : Node ℚ × ℕ) => (st.vals y.2).getD y.1.v))[k]? = some ((st.vals k).getD x.v) := by
    intro N k x hk
    rw [List.getElem?_map, List.getElem?_zipIdx, hk]
    simp
  intro k x hk
  constructor
  · intro ht
    obtain ⟨_, hs⟩ := h2 k x hk (by omega)
    obtain ⟨v, hv⟩ := Option.isSome_iff_exists.1 hs
    have hlt : k < B.length := by rw [← h.length]; exact (List.getElem?_eq_some_iff.1 hk).1
    refine (hget A k x hk).trans (Eq.trans ?_ (hget B k _ (List.getElem?_eq_getElem hlt)).symm)
    rw [hv]
    rfl
  · intro ht
    refine (hget A k x hk).trans ?_
    rw [times_only hA (T - 1) st h1 k x hk (by omega)]
    rfl

end PyF.TreeGen
