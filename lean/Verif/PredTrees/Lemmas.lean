import Verif.PredTrees.Spec
import Verif.ScenGen.Props
import Verif.Scenred.TreeProps

/-! Lemmas on `predict_trees`. -/

namespace PyF.PredTrees
open PyF ScenGen Scenred

theorem effectiveNodes_again (n : ℕ) (ns eff after : List ℕ) (h : TreeBuild.effectiveNodes n ns = .ok (eff, after)) :
    TreeBuild.effectiveNodes n after = .ok (eff, after) := by
  unfold TreeBuild.effectiveNodes at h ⊢
  by_cases hl : (ns.length : Int) = (n : Int) - 1
  · rw [if_pos hl] at h
    simp only [Except.ok.injEq, Prod.mk.injEq] at h
    obtain ⟨h1, h2⟩ := h
    subst h2
    rw [if_pos hl, h1]
  · rw [if_neg hl] at h
    match ns, h, hl with
    | [], h, _ => simp at h
    | a :: rest, h, hl =>
      simp only [Except.ok.injEq, Prod.mk.injEq] at h
      obtain ⟨h1, h2⟩ := h
      subst h1 h2
      simp only [List.length_cons] at hl ⊢
      rw [if_neg hl]

/-- The tree of a call. -/
def treeOf {T : Type} : Except PyErr (T × Obj × Option (List ℕ)) → Except PyErr T
  | .error e => .error e
  | .ok r => .ok r.1

/-- After a successful call, every further call on as many scenarios gives the tree it would have given before. -/
theorem genTree_stable {T S : Type} (dflt : Except PyErr (List ℕ)) (body : ℚ → List ℕ → S → Except PyErr T) (n : ℕ) (o o' : Obj) (ns ns' : Option (List ℕ)) (sc sc' : S) (t : T)
    (h : genTree dflt body n o ns sc = .ok (t, o', ns')) : treeOf (genTree dflt body n o' ns' sc') = treeOf (genTree dflt body n o ns sc') := by
  cases ns with
  | some l =>
    unfold genTree at h
    simp only at h
    cases he : TreeBuild.effectiveNodes n l with
    | error e => rw [he] at h; simp at h
    | ok r =>
      obtain ⟨eff, after⟩ := r
      rw [he] at h
      simp only at h
      cases hb : body (o.rate.getD (max (1 / (n : ℚ)) (1 / 10))) eff sc with
      | error e => rw [hb] at h; simp at h
      | ok t0 =>
        rw [hb] at h
        simp only [Except.ok.injEq, Prod.mk.injEq] at h
        obtain ⟨-, rfl, rfl⟩ := h
        unfold genTree
        simp only [Option.getD_some, he, effectiveNodes_again n l eff after he]
  | none =>
    unfold genTree at h
    simp only at h
    cases hd : dflt with
    | error e => rw [hd] at h; simp at h
    | ok d =>
      rw [hd] at h
      simp only at h
      cases he : TreeBuild.effectiveNodes n (o.own.getD d) with
      | error e => rw [he] at h; simp at h
      | ok r =>
        obtain ⟨eff, after⟩ := r
        rw [he] at h
        simp only at h
        cases hb : body (o.rate.getD (max (1 / (n : ℚ)) (1 / 10))) eff sc with
        | error e => rw [hb] at h; simp at h
        | ok t0 =>
          rw [hb] at h
          simp only [Except.ok.injEq, Prod.mk.injEq] at h
          obtain ⟨-, rfl, rfl⟩ := h
          have hown : TreeBuild.effectiveNodes n ((o.own.map (fun _ => after)).getD d) = .ok (eff, match o.own with | some _ => after | none => after) := by
            cases ho : o.own with
            | none => rw [ho] at he; simpa using he
            | some l => simpa using effectiveNodes_again n _ eff after he
          unfold genTree
          simp only [Option.getD_some, he]
          have hown' : TreeBuild.effectiveNodes n ((o.own.map (fun _ => after)).getD d) = .ok (eff, after) := by
            rw [hown]; cases o.own <;> rfl
          rw [hown']
          simp only
          cases body (o.rate.getD (max (1 / (n : ℚ)) (1 / 10))) eff sc' <;> rfl

/-- The trees of the parallel loop, from the trees of the calls. -/
theorem parTrees_congr {T S : Type} (gen : Obj → Option (List ℕ) → S → Except PyErr (T × Obj × Option (List ℕ))) (o o' : Obj) (ns ns' : Option (List ℕ))
    (h : ∀ sc, treeOf (gen o' ns' sc) = treeOf (gen o ns sc)) (scs : List S) : parTrees gen o' ns' scs = parTrees gen o ns scs := by
  induction scs with
  | nil => rfl
  | cons sc scs ih =>
    have h1 := h sc
    unfold parTrees
    rw [ih]
    cases hg' : gen o' ns' sc <;> cases hg : gen o ns sc <;> rw [hg', hg] at h1 <;> simp [treeOf] at h1
    · simp [h1]
    · simp [h1]

/-- The trees of the sequential loop are those of the parallel one, if calls do not disturb each other. -/
theorem seqTrees_eq_par {T S : Type} (gen : Obj → Option (List ℕ) → S → Except PyErr (T × Obj × Option (List ℕ)))
    (hst : ∀ o o' ns ns' sc sc' t, gen o ns sc = .ok (t, o', ns') → treeOf (gen o' ns' sc') = treeOf (gen o ns sc')) (scs : List S) : ∀ (o : Obj) (ns : Option (List ℕ)),
    (match seqTrees gen o ns scs with | .error e => (.error e : Except PyErr (List T)) | .ok r => .ok r.1) = parTrees gen o ns scs := by
  induction scs with
  | nil => intro o ns; rfl
  | cons sc scs ih =>
    intro o ns
    unfold seqTrees parTrees
    cases hg : gen o ns sc with
    | error e => rfl
    | ok r =>
      obtain ⟨t, o', ns'⟩ := r
      simp only
      have h2 := ih o' ns'
      rw [parTrees_congr gen o o' ns ns' (fun sc' => hst o o' ns ns' sc sc' t hg)] at h2
      rw [← h2]
      cases seqTrees gen o' ns' scs with
      | error e => rfl
      | ok r => rfl

theorem parTrees_length {T S : Type} (gen : Obj → Option (List ℕ) → S → Except PyErr (T × Obj × Option (List ℕ))) (o : Obj) (ns : Option (List ℕ)) (scs : List S) : ∀ ts,
    parTrees gen o ns scs = .ok ts → ts.length = scs.length := by
  induction scs with
  | nil => intro ts h; simp only [parTrees, Except.ok.injEq] at h; subst h; rfl
  | cons sc scs ih =>
    intro ts h
    unfold parTrees at h
    cases hg : gen o ns sc with
    | error e => rw [hg] at h; simp at h
    | ok r =>
      rw [hg] at h
      simp only at h
      cases hp : parTrees gen o ns scs with
      | error e => rw [hp] at h; simp at h
      | ok ts' =>
        rw [hp] at h
        simp only [Except.ok.injEq] at h
        subst h
        simp [ih ts' hp]

theorem seqTrees_length {T S : Type} (gen : Obj → Option (List ℕ) → S → Except PyErr (T × Obj × Option (List ℕ))) (scs : List S) : ∀ (o : Obj) (ns : Option (List ℕ)) ts o' ns',
    seqTrees gen o ns scs = .ok (ts, o', ns') → ts.length = scs.length := by
  induction scs with
  | nil =>
    intro o ns ts o' ns' h
    simp only [seqTrees, Except.ok.injEq, Prod.mk.injEq] at h
    rw [← h.1]; rfl
  | cons sc scs ih =>
    intro o ns ts o' ns' h
    unfold seqTrees at h
    cases hg : gen o ns sc with
    | error e => rw [hg] at h; simp at h
    | ok r =>
      obtain ⟨t, o1, ns1⟩ := r
      rw [hg] at h
      simp only at h
      cases hp : seqTrees gen o1 ns1 scs with
      | error e => rw [hp] at h; simp at h
      | ok r =>
        obtain ⟨ts', o2, ns2⟩ := r
        rw [hp] at h
        simp only [Except.ok.injEq, Prod.mk.injEq] at h
        rw [← h.1]
        simp [ih _ _ _ _ _ hp]

theorem offlineTrees_length {T P : Type} (trees : ℕ → Option T) (sup : P → T → T) (rows : List (ℕ × P)) : ∀ ts : List T, offlineTrees trees sup rows = .ok ts →
    ts.length = rows.length ∧ ∀ (i h : ℕ) (p : P), rows[i]? = some (h, p) → ∃ t, trees h = some t ∧ ts[i]? = some (sup p t) := by
  induction rows with
  | nil =>
    intro ts h
    simp only [offlineTrees, Except.ok.injEq] at h
    subst h
    simp
  | cons r rows ih =>
    intro ts h
    obtain ⟨h0, p0⟩ := r
    unfold offlineTrees at h
    cases ht : trees h0 with
    | none => rw [ht] at h; simp at h
    | some t =>
      rw [ht] at h
      simp only at h
      cases ho : offlineTrees trees sup rows with
      | error e => rw [ho] at h; simp at h
      | ok ts' =>
        rw [ho] at h
        simp only [Except.ok.injEq] at h
        subst h
        obtain ⟨i1, i2⟩ := ih ts' ho
        refine ⟨by simp [i1], ?_⟩
        intro i h p hi
        cases i with
        | zero =>
          simp only [List.getElem?_cons_zero, Option.some.injEq, Prod.mk.injEq] at hi
          obtain ⟨rfl, rfl⟩ := hi
          exact ⟨t, ht, by simp⟩
        | succ i =>
          simp only [List.getElem?_cons_succ] at hi ⊢
          exact i2 i h p hi

theorem offlineTrees_ok {T P : Type} (trees : ℕ → Option T) (sup : P → T → T) (rows : List (ℕ × P)) (hr : ∀ r ∈ rows, (trees r.1).isSome = true) :
    ∃ ts, offlineTrees trees sup rows = .ok ts := by
  induction rows with
  | nil => exact ⟨[], rfl⟩
  | cons r rows ih =>
    obtain ⟨h0, p0⟩ := r
    obtain ⟨ts, hts⟩ := ih (fun r hr' => hr r (List.mem_cons_of_mem _ hr'))
    obtain ⟨t, ht⟩ := Option.isSome_iff_exists.1 (hr (h0, p0) List.mem_cons_self)
    exact ⟨sup p0 t :: ts, by unfold offlineTrees; simp only at ht; rw [ht]; simp only [hts]⟩

end PyF.PredTrees
